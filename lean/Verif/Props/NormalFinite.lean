import Verif.Lemmas.NormalFinite
import Verif.Props.Normals

/-!
# Property C102 (every point gets a normal)

`compute_normals` returns for coordinates up to `2^40`, and the normal is finite if not all neighbors are at the same
position.
-/

namespace Pasture.Props

open Spec BorrowedBuffer Normals CentroidExample RansacExample

/-- **C102**, one point: the estimate for up to `2^20` neighbors with coordinates of moderate size does not panic, the
    curvature is finite and not negative, and the normal is finite if two of the neighbors are apart. -/
theorem C102_estimate_partial {trig : Trig F64} (ht : SaneTrig trig) {ps : List (P3 F64)} (h3 : 3 ≤ ps.length)
    (hN : ps.length ≤ 2 ^ 20) (hm : ∀ p ∈ ps, Moderate p) :
    ∃ r, normalEstimation trig ps = .ok r ∧ GoodNormal ps r := by
  have hs := sized_of h3 hN hm
  obtain ⟨c, hc, h1, h2⟩ := plane_returns ht hs (balanced_of hN hs)
  have hshort : (∃ p ∈ ps, ∃ q ∈ ps, Apart p q) → ShortVector (largestEigenVector (scaled (matrixOf ps) (largestEntry (matrixOf ps)))) := by
    rintro ⟨p, hp, q, hq, hpq⟩
    exact eigen_vector_short (fun x hx => (entries_sized hs x hx).1) (apart_entry hs hp hq hpq)
  generalize largestEigenVector (scaled (matrixOf ps) (largestEntry (matrixOf ps))) = n at hc hshort
  rw [estimation_dense h3 (moderate_dense hm), hc]
  exact ⟨(n, c), rfl, h1, h2, hshort⟩

/-- **C102**: `compute_normals` returns a result for every point, in order. -/
theorem C102_cloud_partial {β : Type} [BorrowedBuffer β] (b : β) (l : PointLayout) (hl : Solid l) (ps : List Point)
    (h : ShowsPoints b l ps) {trig : Trig F64} (ht : SaneTrig trig)
    (nearests : List (P3 F64) → P3 F64 → Nat → List (P3 F64)) (k : Nat)
    (hpos : position3D ∈ l.attributes.map Member.definition) (h3 : 3 ≤ ps.length) (hk : 3 ≤ k) (hK : k ≤ 2 ^ 20)
    (hnear : ∀ p ∈ positionsOf ps, ∀ q ∈ nearests (positionsOf ps) p k, q ∈ positionsOf ps)
    (hcount : ∀ p ∈ positionsOf ps, 3 ≤ (nearests (positionsOf ps) p k).length ∧ (nearests (positionsOf ps) p k).length ≤ k)
    (hm : ∀ p ∈ positionsOf ps, Moderate p) :
    ∃ results, computeNormals trig nearests b k = .ok results ∧
      List.Forall₂ (fun p r => GoodNormal (nearests (positionsOf ps) p k) r) (positionsOf ps) results := by
  rw [C74_results b l hl ps h trig nearests k hpos h3 hk hnear]
  have key : ∀ qs : List (P3 F64), (∀ p ∈ qs, p ∈ positionsOf ps) → ∃ results,
      (qs.mapM fun p => normalEstimation trig (nearests (positionsOf ps) p k)) = .ok results ∧
      List.Forall₂ (fun p r => GoodNormal (nearests (positionsOf ps) p k) r) qs results := by
    intro qs
    induction qs with
    | nil => exact fun _ => ⟨[], rfl, .nil⟩
    | cons q qs ih =>
      intro hq
      obtain ⟨rs, h1, h2⟩ := ih fun p hp => hq p (by simp [hp])
      have hq' := hq q (by simp)
      obtain ⟨r, e, g⟩ := C102_estimate_partial ht (hcount q hq').1 ((hcount q hq').2.trans hK)
        fun p hp => hm p (hnear q hq' p hp)
      refine ⟨r :: rs, ?_, .cons g h2⟩
      rw [List.mapM_cons, e, h1]
      rfl
  exact key _ fun _ hp => hp

/-! ## Neighbors at the same position -/

/-- **C102 is false** for neighbors at the same position: with whole-number coordinates all components of the normal are
    NaNs (the matrix is divided by its largest entry, zero). The curvature is zero. -/
theorem C102_coincident_violated (trig : Trig F64) {n : Nat} (h3 : 3 ≤ n) (hN : n ≤ 2 ^ 53) {a b c : Int}
    (ha : n * |a| ≤ 2 ^ 53) (hb : n * |b| ≤ 2 ^ 53) (hc : n * |c| ≤ 2 ^ 53) :
    ∃ v, normalEstimation trig (List.replicate n (wholePoint a b c)) = .ok (v, Flt.zero .f64) ∧
      v.x.isNaN = true ∧ v.y.isNaN = true ∧ v.z.isNaN = true := by
  have small : ∀ z : Int, n * |z| ≤ 2 ^ 53 → |z| ≤ 2 ^ 53 := by
    intro z hz
    have : 1 * |z| ≤ n * |z| := mul_le_mul_of_nonneg_right (by omega) (abs_nonneg z)
    linarith
  have hp : SamePoint n (wholePoint a b c) a b c :=
    ⟨whole_of_int (small a ha), whole_of_int (small b hb), whole_of_int (small c hc), ha, hb, hc⟩
  generalize wholePoint a b c = p at hp ⊢
  have hd : isDense (List.replicate n p) = true := by
    unfold isDense
    rw [List.all_eq_true]
    intro q hq
    obtain rfl := List.eq_of_mem_replicate hq
    show (!(Flt.isNaN q.x || Flt.isNaN q.y || Flt.isNaN q.z)) = true
    rw [(Flt.finite_cases hp.x.finite).1, (Flt.finite_cases hp.y.finite).1, (Flt.finite_cases hp.z.finite).1]
    rfl
  rw [estimation_dense (by rw [List.length_replicate]; exact h3) hd, matrix_coincident hp (by omega) hN,
    plane_flat trig _ (by decide +kernel) (by decide +kernel)]
  refine ⟨_, rfl, ?_, ?_, ?_⟩ <;> decide +kernel

/-! ## Very large coordinates -/

/-- `2^600`. -/
def huge : F64 := ⟨false, (600 + 1023) * 2 ^ 52⟩

/-- Three points that are far away from each other. -/
def farPoints : List (P3 F64) :=
  [⟨.zero .f64, .zero .f64, .zero .f64⟩, ⟨huge, .zero .f64, .zero .f64⟩, ⟨.zero .f64, huge, .zero .f64⟩]

/-- **C102 is false** for very large coordinates: the squares overflow, and the estimation panics. -/
theorem C102_large_violated (trig : Trig F64) : (∀ p ∈ farPoints, FinitePoint p) ∧
    normalEstimation trig farPoints = panicked := by
  refine ⟨by decide +kernel, ?_⟩
  rw [estimation_dense (by decide) (by decide +kernel)]
  exact solve_nan_coefficients trig (by decide +kernel) (by decide +kernel)

/-! ## Examples -/

/-- Functions with the assumed ranges. -/
theorem sane_example : SaneTrig ⟨fun _ _ => Flt.ofInt .f64 1, fun _ => Flt.ofInt .f64 1, fun _ => Flt.zero .f64⟩ :=
  ⟨fun _ _ _ _ => within_int (by norm_num) (by norm_num), fun _ _ => within_int (by norm_num) (by norm_num), fun _ _ => within_zero⟩

theorem moderate_whole {a b c : Int} (h : |a| ≤ 2 ^ 40 ∧ |b| ≤ 2 ^ 40 ∧ |c| ≤ 2 ^ 40) : Moderate (wholePoint a b c) :=
  ⟨within_int h.1 (by norm_num), within_int h.2.1 (by norm_num), within_int h.2.2 (by norm_num)⟩

theorem corner_moderate : ∀ p ∈ [wholePoint 1 0 0, wholePoint 0 1 0, wholePoint 0 0 1], Moderate p := by
  simp only [List.mem_cons, List.not_mem_nil, or_false, forall_eq_or_imp, forall_eq]
  exact ⟨moderate_whole (by norm_num), moderate_whole (by norm_num), moderate_whole (by norm_num)⟩

theorem corner_apart : Apart (wholePoint 1 0 0) (wholePoint 0 1 0) := by
  left
  have h1 : value (wholePoint 1 0 0).x = 1 := by simpa [wholePoint] using (whole_of_int (z := 1) (by norm_num)).value_eq
  have h2 : value (wholePoint 0 1 0).x = 0 := by simpa [wholePoint] using (whole_of_int (z := 0) (by norm_num)).value_eq
  rw [h1, h2, sub_zero, abs_one]
  exact div_le_self (by norm_num) (one_le_pow₀ (by norm_num))

/-- C102 for the three points of `corner_shows`. -/
example : ∃ results, computeNormals ⟨fun _ _ => Flt.ofInt .f64 1, fun _ => Flt.ofInt .f64 1, fun _ => Flt.zero .f64⟩
      (fun ps _ k => ps.take k) (cloud [wholePoint 1 0 0, wholePoint 0 1 0, wholePoint 0 0 1]) 4 = .ok results ∧
    results.length = 3 ∧ ∀ r ∈ results, ShortVector r.1 ∧ r.2.isFinite = true := by
  obtain ⟨rs, h1, h2⟩ := C102_cloud_partial _ positionLayout positionLayout_solid _ corner_shows sane_example
    (fun ps _ k => ps.take k) 4 (by decide +kernel) (by decide) (by decide) (by norm_num)
    (fun _ _ q hq => List.mem_of_mem_take hq) (by rw [corner_positions]; simp) (by rw [corner_positions]; exact corner_moderate)
  rw [corner_positions] at h2
  refine ⟨rs, h1, h2.length_eq.symm, fun r hr => ?_⟩
  obtain ⟨i, hi, rfl⟩ := List.getElem_of_mem hr
  have := h2.get (i := i) (by rw [h2.length_eq]; exact hi) hi
  exact ⟨this.2.2 ⟨_, by simp, _, by simp, corner_apart⟩, this.1⟩

/-- Three points at (1, 2, 3). -/
example (trig : Trig F64) : ∃ v, normalEstimation trig (List.replicate 3 (wholePoint 1 2 3)) = .ok (v, Flt.zero .f64) ∧
    v.x.isNaN = true ∧ v.y.isNaN = true ∧ v.z.isNaN = true :=
  C102_coincident_violated trig (by norm_num) (by norm_num) (by norm_num) (by norm_num) (by norm_num)

end Pasture.Props
