import Verif.Spec.NormalFinite
import Verif.Lemmas.NormalFloat
import Verif.Lemmas.RansacSample
import Verif.Props.Centroid

/-!
# Sizes of the numbers in the estimation of normals
-/

namespace Pasture

open Spec Normals Flt

/-! ## Sizes -/

theorem Spec.AtMostPow.mono {i k : Nat} {x : F64} (h : AtMostPow i x) (hik : i ≤ k) : AtMostPow k x :=
  ⟨h.1, h.2.trans (pow_le_pow_right₀ (by norm_num) hik)⟩

theorem within_rounds {q : ℚ} {y : F64} (h : RoundsTo q y) {k : Nat} (hk : k ≤ 1000) (hq : |q| ≤ 2 ^ k) : AtMostPow (k + 1) y := by
  have hf := finite_of_bounded h (hq.trans (pow_le_pow_right₀ (by norm_num) hk))
  refine ⟨hf, ?_⟩
  have h1 : (1 : ℚ) ≤ 2 ^ k := one_le_pow₀ (by norm_num)
  have h2 : |q - value y| ≤ 2 ^ k := by
    rcases rounds_error usable_f64 h hf with e | e
    · refine e.trans ((div_le_self (abs_nonneg _) (one_le_pow₀ (by norm_num))).trans hq)
    · refine e.trans (le_trans ?_ h1)
      have hone : (1 : ℚ) ≤ FloatFormat.f64.one := by exact_mod_cast FloatFormat.one_pos (F := .f64)
      rw [div_le_one (by linarith)]
      linarith
  have h3 : |value y| ≤ |q| + |q - value y| := by
    have := abs_sub_abs_le_abs_sub (value y) q
    rw [abs_sub_comm] at this
    linarith
  rw [pow_succ]
  linarith

theorem within_add {i j m : Nat} {x y : F64} (hx : AtMostPow i x) (hy : AtMostPow j y) (hi : i ≤ m) (hj : j ≤ m) (hm : m < 1000) :
    AtMostPow (m + 2) (x.add y) := by
  refine within_rounds (k := m + 1) (add_rounds usable_f64 x y hx.1 hy.1) (by omega) ?_
  have h1 := (hx.mono hi).2
  have h2 := (hy.mono hj).2
  rw [pow_succ]
  have := abs_add_le (value x) (value y)
  linarith

theorem within_negate {k : Nat} {x : F64} (hx : AtMostPow k x) : AtMostPow k x.negate := by
  refine ⟨hx.1, ?_⟩
  rw [value_negate, abs_neg]
  exact hx.2

theorem within_sub {i j m : Nat} {x y : F64} (hx : AtMostPow i x) (hy : AtMostPow j y) (hi : i ≤ m) (hj : j ≤ m) (hm : m < 1000) :
    AtMostPow (m + 2) (x.sub y) := within_add hx (within_negate hy) hi hj hm

theorem within_mul {i j : Nat} {x y : F64} (hx : AtMostPow i x) (hy : AtMostPow j y) (h : i + j ≤ 1000) :
    AtMostPow (i + j + 1) (x.mul y) := by
  refine within_rounds (mul_rounds usable_f64 x y hx.1 hy.1) h ?_
  rw [abs_mul, pow_add]
  exact mul_le_mul hx.2 hy.2 (abs_nonneg _) (by positivity)

theorem within_sqrt {k : Nat} {x : F64} (hx : AtMostPow k x) (hn : x.neg = false ∨ x.mag = 0) : AtMostPow (k + 1) x.sqrt := by
  by_cases h0 : x.mag = 0
  · have : x.sqrt = x := by
      unfold Flt.sqrt
      rw [(finite_cases hx.1).1, if_neg (by simp), if_pos h0]
    rw [this]
    exact hx.mono (by omega)
  · obtain ⟨h1, _, h3⟩ := sqrt_nearest usable_f64 x hx.1 (hn.resolve_right h0) h0
    refine ⟨h1, ?_⟩
    have h4 := h3 (Flt.zero .f64) (by decide)
    rw [show value (Flt.zero .f64) = 0 by decide +kernel] at h4
    have hb : (1 : ℝ) ≤ 2 ^ k := one_le_pow₀ (by norm_num)
    have h5 : √((value x : ℚ) : ℝ) ≤ 2 ^ k := by
      rw [Real.sqrt_le_left (by positivity)]
      have h6 : ((value x : ℚ) : ℝ) ≤ 2 ^ k := by
        have := (le_abs_self _).trans hx.2
        exact_mod_cast this
      nlinarith
    have h7 := Real.sqrt_nonneg ((value x : ℚ) : ℝ)
    rw [Rat.cast_zero, sub_zero, abs_of_nonneg h7] at h4
    have h8 : |((value x.sqrt : ℚ) : ℝ)| ≤ 2 ^ (k + 1) := by
      rw [pow_succ, abs_le]
      have := abs_le.1 h4
      constructor <;> linarith [this.1, this.2]
    exact_mod_cast h8

theorem within_int {z : Int} {k : Nat} (hz : |z| ≤ 2 ^ k) (hk : k ≤ 53) : AtMostPow k (Flt.ofInt .f64 z) := by
  have h := whole_of_int (z := z) (hz.trans (pow_le_pow_right₀ (by norm_num) hk))
  refine ⟨h.finite, ?_⟩
  rw [h.value_eq]
  exact_mod_cast hz

theorem within_zero : AtMostPow 0 (Flt.zero .f64) := ⟨by decide, by rw [show value (Flt.zero .f64) = 0 by decide +kernel]; simp⟩

theorem within_div {i : Nat} {x y : F64} (hx : AtMostPow i x) (hy : y.isFinite = true) (h1 : 1 ≤ |value y|) (hi : i ≤ 1000) :
    AtMostPow (i + 1) (x.div y) := by
  refine within_rounds (div_rounds usable_f64 x y hx.1 hy (by intro e; rw [e] at h1; norm_num at h1)) hi ?_
  rw [abs_div]
  exact (div_le_self (abs_nonneg _) h1).trans hx.2

theorem Spec.AtMostPow.notNaN {k : Nat} {x : F64} (h : AtMostPow k x) : x.isNaN = false := (finite_cases h.1).1

/-- A sum of at most `2^20` numbers up to `M`. -/
theorem within_total {M : ℚ} {xs : List F64} (hM : 0 ≤ M) (hM' : M ≤ 2 ^ 900) (hN : xs.length ≤ 2 ^ 20)
    (hxs : ∀ x ∈ xs, x.isFinite = true ∧ |value x| ≤ M) : (xs.foldl Flt.add (Flt.zero .f64)).isFinite = true ∧
      |value (xs.foldl Flt.add (Flt.zero .f64))| ≤ 2 ^ 21 * M := by
  have hB : 2 * ((2 ^ 20 : Nat) : ℚ) * M ≤ 2 ^ 1000 := by
    have h1 : (2 : ℚ) ^ 21 * 2 ^ 900 ≤ 2 ^ 1000 := by
      rw [← pow_add]
      exact pow_le_pow_right₀ (by norm_num) (by norm_num)
    have h2 : (2 : ℚ) ^ 21 * M ≤ 2 ^ 21 * 2 ^ 900 := mul_le_mul_of_nonneg_left hM' (by positivity)
    have h3 : 2 * ((2 ^ 20 : Nat) : ℚ) * M = 2 ^ 21 * M := by norm_num
    rw [h3]
    exact h2.trans h1
  obtain ⟨h1, h2⟩ := sum_error (M := M) (N := 2 ^ 20) hM (by norm_num) hB xs (Flt.zero .f64) 0 0 hxs (by omega)
    (by decide) (by simp) (by rw [show value (Flt.zero .f64) = 0 by decide +kernel]; simp)
  refine ⟨h1, ?_⟩
  have h3 : |(xs.map value).sum| ≤ xs.length * M := by
    clear h1 h2 hN
    induction xs with
    | nil => simp
    | cons x xs ih =>
      rw [List.map_cons, List.sum_cons, List.length_cons]
      have h4 := ih fun y hy => hxs y (List.mem_cons_of_mem _ hy)
      have h5 := (hxs x List.mem_cons_self).2
      have h6 := abs_add_le (value x) (xs.map value).sum
      push_cast
      linarith
  have hN' : (xs.length : ℚ) ≤ 2 ^ 20 := by exact_mod_cast hN
  rw [Nat.cast_zero, zero_add, zero_add] at h2
  have h7 : (xs.length : ℚ) * (2 * ((2 ^ 20 : Nat) : ℚ) * M / 2 ^ 53) ≤ 2 ^ 20 * M := by
    have e : (xs.length : ℚ) * (2 * ((2 ^ 20 : Nat) : ℚ) * M / 2 ^ 53) = xs.length * (1 / 2 ^ 32) * M := by
      push_cast; ring
    rw [e]
    refine mul_le_mul_of_nonneg_right ?_ hM
    have : (0 : ℚ) ≤ xs.length := Nat.cast_nonneg _
    nlinarith
  have h8 : (xs.length : ℚ) * M ≤ 2 ^ 20 * M := mul_le_mul_of_nonneg_right hN' hM
  have h9 : |value (xs.foldl Flt.add (Flt.zero .f64))| ≤
      |value (xs.foldl Flt.add (Flt.zero .f64)) - (xs.map value).sum| + |(xs.map value).sum| := by
    have := abs_sub_abs_le_abs_sub (value (xs.foldl Flt.add (Flt.zero .f64))) (xs.map value).sum
    linarith
  linarith

/-- A sum of at most `2^20` numbers. -/
theorem within_sum {k : Nat} {xs : List F64} (hk : k ≤ 900) (hN : xs.length ≤ 2 ^ 20) (hxs : ∀ x ∈ xs, AtMostPow k x) :
    AtMostPow (k + 21) (xs.foldl Flt.add (Flt.zero .f64)) := by
  obtain ⟨h1, h2⟩ := within_total (M := 2 ^ k) (by positivity) (pow_le_pow_right₀ (by norm_num) hk) hN hxs
  exact ⟨h1, h2.trans (le_of_eq (by rw [pow_add, mul_comm]))⟩

/-- A coordinate of the centroid. -/
theorem within_mean {xs : List F64} (hne : xs ≠ []) (hN : xs.length ≤ 2 ^ 20) (hxs : ∀ x ∈ xs, AtMostPow 40 x) :
    AtMostPow 62 (Flt.div (xs.foldl Flt.add (Flt.zero .f64)) (Flt.ofInt .f64 xs.length)) := by
  have hs := within_sum (k := 40) (by norm_num) hN hxs
  have hw := whole_of_int (z := (xs.length : Int)) (by
    rw [abs_of_nonneg (Int.natCast_nonneg _)]
    have : (xs.length : Int) ≤ 2 ^ 20 := by exact_mod_cast hN
    linarith)
  refine within_div hs hw.finite ?_ (by norm_num)
  rw [hw.value_eq]
  have : 1 ≤ xs.length := List.length_pos_iff.2 hne
  have : (1 : ℚ) ≤ xs.length := by exact_mod_cast this
  rw [Int.cast_natCast, abs_of_nonneg (by linarith)]
  exact this

/-! ## The covariance matrix -/

namespace Normals

/-- The centroid of the points, by coordinates. -/
def centerOf (ps : List (P3 F64)) : P3 F64 :=
  let c := fun f : P3 F64 → F64 => Flt.div ((ps.map f).foldl Flt.add (Flt.zero .f64)) (Flt.ofInt .f64 ps.length)
  ⟨c P3.x, c P3.y, c P3.z⟩

/-- An entry of the covariance matrix. -/
def entryOf (ps : List (P3 F64)) (f g : P3 F64 → F64) : F64 :=
  (ps.map fun p => ((f p).sub (f (centerOf ps))).mul ((g p).sub (g (centerOf ps)))).foldl Flt.add (Flt.zero .f64)

/-- The covariance matrix of some points, by entries. -/
def matrixOf (ps : List (P3 F64)) : Mat3 F64 :=
  ⟨⟨entryOf ps P3.x P3.x, entryOf ps P3.y P3.x, entryOf ps P3.z P3.x⟩,
   ⟨entryOf ps P3.y P3.x, entryOf ps P3.y P3.y, entryOf ps P3.y P3.z⟩,
   ⟨entryOf ps P3.z P3.x, entryOf ps P3.y P3.z, entryOf ps P3.z P3.z⟩⟩

theorem moderate_dense {ps : List (P3 F64)} (h : ∀ p ∈ ps, Moderate p) : isDense ps = true := by
  unfold isDense
  rw [List.all_eq_true]
  intro p hp
  obtain ⟨h1, h2, h3⟩ := h p hp
  show (!(Flt.isNaN p.x || Flt.isNaN p.y || Flt.isNaN p.z)) = true
  rw [h1.notNaN, h2.notNaN, h3.notNaN]
  rfl

theorem covariance_dense {ps : List (P3 F64)} (h3 : 3 ≤ ps.length) (hd : isDense ps = true) :
    covarianceMatrix ps = .ok (matrixOf ps) := by
  have hne : ps.isEmpty = false := by
    cases ps with
    | nil => simp at h3
    | cons => rfl
  unfold covarianceMatrix centroid
  rw [if_neg (by rw [hne]; decide)]
  dsimp only
  rw [if_pos hd, Props.fold_points]
  simp only [bind, Except.bind]
  rw [if_pos hd, covariance_sums]
  dsimp only
  have hl : ¬ps.length < 3 := by omega
  simp only [bailIf, hl, decide_false]
  rfl

variable {ps : List (P3 F64)} (h3 : 3 ≤ ps.length) (hN : ps.length ≤ 2 ^ 20) (hm : ∀ p ∈ ps, Moderate p)
include h3 hN hm

theorem center_sized {f : P3 F64 → F64} (hf : ∀ p, Moderate p → AtMostPow 40 (f p)) :
    AtMostPow 62 (Flt.div ((ps.map f).foldl Flt.add (Flt.zero .f64)) (Flt.ofInt .f64 ps.length)) := by
  have := within_mean (xs := ps.map f) (by intro e; rw [List.map_eq_nil_iff] at e; rw [e] at h3; simp at h3)
    (by rw [List.length_map]; exact hN) (by
      intro x hx
      obtain ⟨p, hp, rfl⟩ := List.mem_map.1 hx
      exact hf p (hm p hp))
  rwa [List.length_map] at this

theorem centers_sized : AtMostPow 62 (centerOf ps).x ∧ AtMostPow 62 (centerOf ps).y ∧ AtMostPow 62 (centerOf ps).z :=
  ⟨center_sized h3 hN hm fun _ h => h.1, center_sized h3 hN hm fun _ h => h.2.1, center_sized h3 hN hm fun _ h => h.2.2⟩

omit h3 in
theorem entry_sized {f g : P3 F64 → F64} (hf : ∀ p, Moderate p → AtMostPow 40 (f p)) (hg : ∀ p, Moderate p → AtMostPow 40 (g p))
    (hfc : AtMostPow 62 (f (centerOf ps))) (hgc : AtMostPow 62 (g (centerOf ps))) : AtMostPow 150 (entryOf ps f g) := by
  refine within_sum (k := 129) (by norm_num) (by rw [List.length_map]; exact hN) ?_
  intro x hx
  obtain ⟨p, hp, rfl⟩ := List.mem_map.1 hx
  exact within_mul (i := 64) (j := 64) (within_sub (m := 62) (hf p (hm p hp)) hfc (by norm_num) (by norm_num) (by norm_num))
    (within_sub (m := 62) (hg p (hm p hp)) hgc (by norm_num) (by norm_num) (by norm_num)) (by norm_num)

/-- All entries. -/
theorem matrix_sized : AtMostPow 150 (entryOf ps P3.x P3.x) ∧ AtMostPow 150 (entryOf ps P3.y P3.x) ∧
    AtMostPow 150 (entryOf ps P3.z P3.x) ∧ AtMostPow 150 (entryOf ps P3.y P3.y) ∧ AtMostPow 150 (entryOf ps P3.y P3.z) ∧
    AtMostPow 150 (entryOf ps P3.z P3.z) := by
  obtain ⟨cx, cy, cz⟩ := centers_sized h3 hN hm
  have fx : ∀ p : P3 F64, Moderate p → AtMostPow 40 p.x := fun _ h => h.1
  have fy : ∀ p : P3 F64, Moderate p → AtMostPow 40 p.y := fun _ h => h.2.1
  have fz : ∀ p : P3 F64, Moderate p → AtMostPow 40 p.z := fun _ h => h.2.2
  exact ⟨entry_sized hN hm fx fx cx cx, entry_sized hN hm fy fx cy cx, entry_sized hN hm fz fx cz cx,
    entry_sized hN hm fy fy cy cy, entry_sized hN hm fy fz cy cz, entry_sized hN hm fz fz cz cz⟩

end Normals

/-! ## The eigenvalues -/

namespace Normals

/-- All entries of a matrix that the formulas use. -/
structure SizedMatrix (a : Mat3 F64) : Prop where
  a00 : AtMostPow 150 a.row0.x
  a01 : AtMostPow 150 a.row0.y
  a02 : AtMostPow 150 a.row0.z
  a10 : AtMostPow 150 a.row1.x
  a11 : AtMostPow 150 a.row1.y
  a12 : AtMostPow 150 a.row1.z
  a20 : AtMostPow 150 a.row2.x
  a21 : AtMostPow 150 a.row2.y
  a22 : AtMostPow 150 a.row2.z

theorem sized_two : AtMostPow 1 (Flt.ofInt .f64 2) := within_int (by norm_num) (by norm_num)

theorem coefficient2_sized {a : Mat3 F64} (h : SizedMatrix a) : AtMostPow 154 (coefficient2 a) :=
  within_add (m := 152) (within_add (m := 150) h.a00 h.a11 (by norm_num) (by norm_num) (by norm_num)) h.a22
    (by norm_num) (by norm_num) (by norm_num)

theorem coefficient1_sized {a : Mat3 F64} (h : SizedMatrix a) : AtMostPow 311 (coefficient1 a) := by
  have m : ∀ {x y : F64}, AtMostPow 150 x → AtMostPow 150 y → AtMostPow 301 (x.mul y) := fun hx hy =>
    within_mul hx hy (by norm_num)
  exact within_sub (m := 309) (within_add (m := 307) (within_sub (m := 305) (within_add (m := 303) (within_sub (m := 301)
    (m h.a00 h.a11) (m h.a01 h.a01) (by norm_num) (by norm_num) (by norm_num)) (m h.a00 h.a22) (by norm_num) (by norm_num)
    (by norm_num)) (m h.a02 h.a02) (by norm_num) (by norm_num) (by norm_num)) (m h.a11 h.a22) (by norm_num) (by norm_num)
    (by norm_num)) (m h.a12 h.a12) (by norm_num) (by norm_num) (by norm_num)

theorem coefficient0_sized {a : Mat3 F64} (h : SizedMatrix a) : AtMostPow 462 (coefficient0 a) := by
  have m : ∀ {x y z : F64}, AtMostPow 150 x → AtMostPow 150 y → AtMostPow 150 z → AtMostPow 452 ((x.mul y).mul z) :=
    fun hx hy hz => within_mul (i := 301) (within_mul hx hy (by norm_num)) hz (by norm_num)
  have m2 : AtMostPow 454 ((((Flt.ofInt .f64 2).mul a.row0.y).mul a.row0.z).mul a.row1.z) :=
    within_mul (i := 303) (within_mul (i := 152) (within_mul sized_two h.a01 (by norm_num)) h.a02 (by norm_num)) h.a12 (by norm_num)
  exact within_sub (m := 460) (within_sub (m := 458) (within_sub (m := 456) (within_add (m := 454)
    (m h.a00 h.a11 h.a22) m2 (by norm_num) (by norm_num) (by norm_num)) (m h.a00 h.a12 h.a12) (by norm_num) (by norm_num)
    (by norm_num)) (m h.a11 h.a02 h.a02) (by norm_num) (by norm_num) (by norm_num)) (m h.a22 h.a01 h.a01) (by norm_num)
    (by norm_num) (by norm_num)

/-- `if x > 0 { 0 } else { x }` is not positive. -/
theorem clamp_sized {k : Nat} {x : F64} (hx : AtMostPow k x) :
    AtMostPow k (if Flt.lt (Flt.zero .f64) x then Flt.zero .f64 else x) ∧
    ((if Flt.lt (Flt.zero .f64) x then Flt.zero .f64 else x).negate.neg = false ∨
      (if Flt.lt (Flt.zero .f64) x then Flt.zero .f64 else x).negate.mag = 0) := by
  split
  · exact ⟨within_zero.mono (by omega), .inr rfl⟩
  · rename_i hlt
    refine ⟨hx, ?_⟩
    by_cases h0 : x.mag = 0
    · exact .inr h0
    · left
      show (!x.neg) = false
      cases hn : x.neg with
      | true => rfl
      | false =>
        exfalso
        apply hlt
        rw [lt_rank (by decide) hx.notNaN]
        unfold Flt.rank
        rw [hn]
        simp [Flt.zero]
        omega

/-- The roots are finite. -/
theorem roots_sized {trig : Trig F64} (ht : SaneTrig trig) {c0 c1 c2 : F64} (h0 : AtMostPow 462 c0) (h1 : AtMostPow 311 c1)
    (h2 : AtMostPow 154 c2) : AtMostPow 325 (cubicRoots trig c0 c1 c2).x ∧ AtMostPow 325 (cubicRoots trig c0 c1 c2).y ∧
      AtMostPow 325 (cubicRoots trig c0 c1 c2).z := by
  have third : AtMostPow 1 ((Flt.ofInt .f64 1).div (Flt.ofInt .f64 3)) := by
    have h3 := whole_of_int (z := 3) (by norm_num)
    exact within_div (i := 0) (within_int (by norm_num) (by norm_num)) h3.finite (by rw [h3.value_eq]; norm_num) (by norm_num)
  have hhalf : AtMostPow 1 ((Flt.ofInt .f64 1).div (Flt.ofInt .f64 2)) := by
    have h3 := whole_of_int (z := 2) (by norm_num)
    exact within_div (i := 0) (within_int (by norm_num) (by norm_num)) h3.finite (by rw [h3.value_eq]; norm_num) (by norm_num)
  have root3 : AtMostPow 3 (Flt.ofInt .f64 3).sqrt :=
    within_sqrt (k := 2) (within_int (by norm_num) (by norm_num)) (.inl (by decide +kernel))
  unfold cubicRoots
  simp only [Number.ofInt, Number.half, Arith.mul, Arith.add, Arith.sub, Arith.div, Arith.sqrt, Arith.neg, Arith.lt, Arith.zero]
  generalize (Flt.ofInt .f64 1).div (Flt.ofInt .f64 3) = third' at third ⊢
  generalize (Flt.ofInt .f64 1).div (Flt.ofInt .f64 2) = half' at hhalf ⊢
  generalize (Flt.ofInt .f64 3).sqrt = root' at root3 ⊢
  have c2t : AtMostPow 156 (c2.mul third') := within_mul h2 third (by norm_num)
  generalize c2.mul third' = t at c2t ⊢
  have al : AtMostPow 315 ((c1.sub (c2.mul t)).mul third') :=
    within_mul (i := 313) (within_sub (m := 311) h1 (within_mul h2 c2t (by norm_num)) (by norm_num) (by norm_num) (by norm_num))
      third (by norm_num)
  obtain ⟨al, aln⟩ := clamp_sized al
  generalize (if Flt.lt (Flt.zero .f64) ((c1.sub (c2.mul t)).mul third') = true then Flt.zero .f64
    else (c1.sub (c2.mul t)).mul third') = al' at al aln ⊢
  have two := sized_two
  generalize Flt.ofInt .f64 2 = two' at two ⊢
  have hb : AtMostPow 478 (half'.mul (c0.add (t.mul (((two'.mul t).mul t).sub c1)))) :=
    within_mul (j := 476) hhalf (within_add (m := 474) h0 (within_mul (j := 317) c2t (within_sub (m := 315)
      (within_mul (i := 158) (within_mul two c2t (by norm_num)) c2t (by norm_num)) h1 (by norm_num) (by norm_num) (by norm_num))
      (by norm_num)) (by norm_num) (by norm_num) (by norm_num)) (by norm_num)
  generalize half'.mul (c0.add (t.mul (((two'.mul t).mul t).sub c1))) = hb' at hb ⊢
  have q : AtMostPow 959 ((hb'.mul hb').add ((al'.mul al').mul al')) := by
    have sq := within_mul al al (by norm_num)
    have cube := within_mul sq al (by norm_num)
    exact within_add (m := 957) (within_mul hb hb (by norm_num)) cube (by norm_num) (by norm_num) (by norm_num)
  obtain ⟨q, qn⟩ := clamp_sized q
  generalize (if Flt.lt (Flt.zero .f64) ((hb'.mul hb').add ((al'.mul al').mul al')) = true then Flt.zero .f64
    else (hb'.mul hb').add ((al'.mul al').mul al')) = q' at q qn ⊢
  have rho : AtMostPow 316 al'.negate.sqrt := within_sqrt (within_negate al) aln
  generalize al'.negate.sqrt = rho' at rho ⊢
  have th : AtMostPow 4 ((trig.atan2 q'.negate.sqrt hb').mul third') :=
    within_mul (ht.atan2 _ _ (within_sqrt (within_negate q) qn).1 hb.1) third (by norm_num)
  generalize (trig.atan2 q'.negate.sqrt hb').mul third' = th' at th ⊢
  have co := ht.cos _ th.1
  have si := ht.sin _ th.1
  have rs : AtMostPow 4 (root'.mul (trig.sin th')) := within_mul root3 si (by norm_num)
  refine ⟨?_, ?_, ?_⟩
  · exact (within_add (m := 320) c2t (within_mul (i := 318) (within_mul two rho (by norm_num)) co (by norm_num)) (by norm_num)
      (by norm_num) (by norm_num)).mono (by norm_num)
  · exact (within_sub (m := 323) c2t (within_mul (j := 6) rho (within_add (m := 4) co rs (by norm_num) (by norm_num) (by norm_num))
      (by norm_num)) (by norm_num) (by norm_num) (by norm_num)).mono (by norm_num)
  · exact (within_sub (m := 323) c2t (within_mul (j := 6) rho (within_sub (m := 4) co rs (by norm_num) (by norm_num) (by norm_num))
      (by norm_num)) (by norm_num) (by norm_num) (by norm_num)).mono (by norm_num)

theorem solve_returns {trig : Trig F64} (ht : SaneTrig trig) {a : Mat3 F64} (h : SizedMatrix a) :
    ∃ v, solvePolynomial trig a = .ok v ∧ AtMostPow 325 v.x := by
  obtain ⟨h1, h2, h3⟩ := roots_sized ht (coefficient0_sized h) (coefficient1_sized h) (coefficient2_sized h)
  have zero' : AtMostPow 325 (Arith.zero : F64) := within_zero.mono (by omega)
  unfold solvePolynomial
  dsimp only
  split
  · exact ⟨_, rfl, zero'⟩
  · have : ∃ v, sort3 (cubicRoots trig (coefficient0 a) (coefficient1 a) (coefficient2 a)) = .ok v ∧ AtMostPow 325 v.x := by
      generalize cubicRoots trig (coefficient0 a) (coefficient1 a) (coefficient2 a) = r at h1 h2 h3
      unfold sort3
      rw [if_neg (by
        show ¬(Flt.isNaN r.x || Flt.isNaN r.y || Flt.isNaN r.z) = true
        rw [h1.notNaN, h2.notNaN, h3.notNaN]; simp)]
      dsimp only
      split <;> split <;> (try split) <;> first | exact ⟨_, rfl, h1⟩ | exact ⟨_, rfl, h2⟩ | exact ⟨_, rfl, h3⟩
    obtain ⟨v, hv, hx⟩ := this
    rw [hv]
    show ∃ w, (if Arith.le v.x Arith.zero = true then _ else _) = _ ∧ _
    split
    · exact ⟨_, rfl, zero'⟩
    · exact ⟨_, rfl, hx⟩

end Normals

/-! ## Bounds that rounding keeps -/

/-- Numbers of magnitude at most 1 or 2 are rounded to such numbers. -/
theorem rounds_bounded {q : ℚ} {y : F64} (h : RoundsTo q y) {b : Int} (hb : |b| ≤ 2 ^ 53) (hq : |q| ≤ b) :
    y.isFinite = true ∧ |value y| ≤ b := by
  have hf : y.isFinite = true := by
    refine finite_of_bounded h (hq.trans (le_trans (b := (2 : ℚ) ^ 53) ?_ (pow_le_pow_right₀ (by norm_num) (by norm_num))))
    exact_mod_cast (le_abs_self b).trans hb
  refine ⟨hf, ?_⟩
  have hw := whole_of_int hb
  have hn := (hw.negate)
  have h1 := h.nearest hf _ hw.finite
  have h2 := h.nearest hf _ hn.finite
  rw [hw.value_eq] at h1
  rw [hn.value_eq] at h2
  push_cast at h2
  obtain ⟨q1, q2⟩ := abs_le.1 hq
  rw [abs_le]
  constructor
  · by_contra hc
    rw [not_le] at hc
    rw [abs_of_nonneg (by linarith), abs_of_nonneg (by linarith)] at h2
    linarith
  · by_contra hc
    rw [not_le] at hc
    rw [abs_of_nonpos (by linarith), abs_of_nonpos (by linarith)] at h1
    linarith

/-- Numbers that are not tiny keep half of their magnitude. -/
theorem rounds_away {q : ℚ} {y : F64} (h : RoundsTo q y) (hy : y.isFinite = true) {m : ℚ} (hm : m ≤ |q|)
    (h0 : 1 / FloatFormat.f64.one ≤ m) : m / 2 ≤ |value y| := by
  have hone : (0 : ℚ) < FloatFormat.f64.one := by exact_mod_cast FloatFormat.one_pos (F := .f64)
  have h3 := abs_sub_abs_le_abs_sub q (value y)
  rcases rounds_error usable_f64 h hy with e | e
  · have : |q| / 2 ^ (FloatFormat.f64.mantBits + 1) ≤ |q| / 2 := by
      apply div_le_div_of_nonneg_left (abs_nonneg _) (by norm_num)
      exact le_self_pow₀ (by norm_num) (by norm_num)
    linarith
  · have : 1 / (2 * (FloatFormat.f64.one : ℚ)) = 1 / FloatFormat.f64.one / 2 := by rw [div_div, mul_comm]
    rw [this] at e
    linarith

namespace Normals

/-! ## The largest entry -/

theorem max_values {x y : F64} (hx : x.isFinite = true) (hy : y.isFinite = true) :
    (max x y).isFinite = true ∧ value x ≤ value (max x y) ∧ value y ≤ value (max x y) ∧
      (value (max x y) = value x ∨ value (max x y) = value y) := by
  have nx := (finite_cases hx).1
  have ny := (finite_cases hy).1
  unfold max
  simp only [Number.isNaN, Arith.lt, nx, ny]
  rw [if_neg (by decide), if_neg (by decide)]
  split
  · rename_i hlt
    rw [lt_rank nx ny] at hlt
    exact ⟨hy, (rank_le usable_f64 _ _).1 (by omega), le_refl _, .inr rfl⟩
  · rename_i hlt
    rw [lt_rank nx ny] at hlt
    exact ⟨hx, le_refl _, (rank_le usable_f64 _ _).1 (by omega), .inl rfl⟩

theorem fold_largest : ∀ (xs : List F64) (m : F64), m.isFinite = true → (∀ x ∈ xs, x.isFinite = true) →
    (xs.foldl (fun m x => max m (Arith.abs x)) m).isFinite = true ∧
    value m ≤ value (xs.foldl (fun m x => max m (Arith.abs x)) m) ∧
    (∀ x ∈ xs, |value x| ≤ value (xs.foldl (fun m x => max m (Arith.abs x)) m)) ∧
    ∀ b, value m ≤ b → (∀ x ∈ xs, |value x| ≤ b) → value (xs.foldl (fun m x => max m (Arith.abs x)) m) ≤ b
  | [], m, hm, _ => ⟨hm, le_refl _, by simp, fun _ h _ => h⟩
  | x :: xs, m, hm, h => by
    have hx := h x (by simp)
    obtain ⟨h1, h2, h3, h4⟩ := max_values hm (abs_finite hx)
    obtain ⟨i1, i2, i3, i4⟩ := fold_largest xs (max m (Arith.abs x)) h1 fun y hy => h y (by simp [hy])
    refine ⟨i1, h2.trans i2, ?_, ?_⟩
    · intro y hy
      rcases List.mem_cons.1 hy with rfl | hy
      · rw [← value_abs']
        exact h3.trans i2
      · exact i3 y hy
    · intro b hb hall
      refine i4 b ?_ fun y hy => hall y (by simp [hy])
      have hxb := hall x (by simp)
      rw [← value_abs'] at hxb
      rcases h4 with e | e
      · exact e.trans_le hb
      · exact e.trans_le hxb

/-- The entries of a matrix. -/
def entries (a : Mat3 F64) : List F64 :=
  [a.row0.x, a.row1.x, a.row2.x, a.row0.y, a.row1.y, a.row2.y, a.row0.z, a.row1.z, a.row2.z]

theorem largest_entry {a : Mat3 F64} (h : ∀ x ∈ entries a, x.isFinite = true) :
    (largestEntry a).isFinite = true ∧ (∀ x ∈ entries a, |value x| ≤ value (largestEntry a)) ∧
    ∀ b, (∀ x ∈ entries a, |value x| ≤ b) → value (largestEntry a) ≤ b := by
  unfold entries at h ⊢
  obtain ⟨h1, h2, h3, h4⟩ := fold_largest _ (Arith.abs a.row0.x) (abs_finite (h _ (by simp)))
    (fun x hx => h x (List.mem_cons_of_mem _ hx))
  refine ⟨h1, fun x hx => ?_, fun b hb => h4 b ?_ fun x hx => hb x (List.mem_cons_of_mem _ hx)⟩
  · rcases List.mem_cons.1 hx with rfl | hx
    · rw [← value_abs']
      exact h2
    · exact h3 x hx
  · have := hb a.row0.x (by simp)
    rwa [← value_abs'] at this

/-- The quotients are at most 1. -/
theorem quotient_short {x s : F64} (hx : x.isFinite = true) (hs : s.isFinite = true) (h0 : 0 < value s) (h : |value x| ≤ value s) :
    AtMostPow 0 (x.div s) := by
  have := rounds_bounded (div_rounds usable_f64 x s hx hs h0.ne') (b := 1) (by norm_num) (by
    rw [abs_div, abs_of_pos h0]
    push_cast
    exact (div_le_one h0).2 h)
  exact ⟨this.1, by simpa using this.2⟩

theorem product_short {x y : F64} (hx : AtMostPow 0 x) (hy : AtMostPow 0 y) : AtMostPow 0 (x.mul y) := by
  have h1 := hx.2
  have h2 := hy.2
  rw [pow_zero] at h1 h2
  have := rounds_bounded (mul_rounds usable_f64 x y hx.1 hy.1) (b := 1) (by norm_num) (by
    rw [abs_mul]
    push_cast
    exact mul_le_one₀ h1 (abs_nonneg _) h2)
  exact ⟨this.1, by simpa using this.2⟩

theorem difference_short {x y : F64} (hx : AtMostPow 0 x) (hy : AtMostPow 0 y) : AtMostPow 1 (x.sub y) := by
  have h1 := hx.2
  have h2 := hy.2
  rw [pow_zero] at h1 h2
  have := rounds_bounded (sub_rounds usable_f64 x y hx.1 hy.1) (b := 2) (by norm_num) (by
    push_cast
    exact (abs_sub _ _).trans (by linarith))
  exact ⟨this.1, by simpa using this.2⟩

/-- A vector of numbers between -1 and 1. -/
def UnitBox (p : P3 F64) : Prop := AtMostPow 0 p.x ∧ AtMostPow 0 p.y ∧ AtMostPow 0 p.z

theorem cross_short {u v : P3 F64} (hu : UnitBox u) (hv : UnitBox v) : ShortVector (Vec3.cross u v) :=
  ⟨difference_short (product_short hu.2.1 hv.2.2) (product_short hu.2.2 hv.2.1),
   difference_short (product_short hu.2.2 hv.1) (product_short hu.1 hv.2.2),
   difference_short (product_short hu.1 hv.2.1) (product_short hu.2.1 hv.1)⟩

theorem fold_choice {P : P3 F64 → Prop} : ∀ (rows : List (P3 F64)) (v : P3 F64), P v → (∀ r ∈ rows, P r) →
    P (rows.foldl (fun largest row => if Arith.lt (Vec3.norm largest) (Vec3.norm row) then row else largest) v)
  | [], _, hv, _ => hv
  | r :: rows, v, hv, h => by
    rw [List.foldl_cons]
    apply fold_choice rows
    · split
      · exact h r (by simp)
      · exact hv
    · exact fun x hx => h x (by simp [hx])

/-- Matrices with an entry that is not zero have a finite vector. -/
theorem eigen_vector_short {a : Mat3 F64} (h : ∀ x ∈ entries a, x.isFinite = true) (h0 : ∃ x ∈ entries a, value x ≠ 0) :
    ShortVector (largestEigenVector (scaled a (largestEntry a))) := by
  obtain ⟨h1, h2, _⟩ := largest_entry h
  obtain ⟨x, hx, hx0⟩ := h0
  have hpos : 0 < value (largestEntry a) := (abs_pos.2 hx0).trans_le (h2 x hx)
  generalize largestEntry a = s at h1 h2 hpos ⊢
  have key : ∀ x ∈ entries a, AtMostPow 0 (x.div s) := fun x hx => quotient_short (h x hx) h1 hpos (h2 x hx)
  unfold entries at key
  have r0 : UnitBox (scaled a s).row0 := ⟨key _ (by simp), key _ (by simp), key _ (by simp)⟩
  have r1 : UnitBox (scaled a s).row1 := ⟨key _ (by simp), key _ (by simp), key _ (by simp)⟩
  have r2 : UnitBox (scaled a s).row2 := ⟨key _ (by simp), key _ (by simp), key _ (by simp)⟩
  unfold largestEigenVector
  apply fold_choice (P := ShortVector)
  · exact cross_short r0 r1
  · intro r hr
    simp only [List.mem_cons, List.not_mem_nil, or_false] at hr
    rcases hr with rfl | rfl | rfl
    · exact cross_short r0 r1
    · exact cross_short r0 r2
    · exact cross_short r1 r2

/-! ## Sums of squares -/

theorem value_zero' : value (Flt.zero .f64) = 0 := whole_zero.value_eq.trans (by norm_num)

theorem value_le_add {x y : F64} (hx : x.isFinite = true) (hy : y.isFinite = true) (h : 0 ≤ value y) :
    value x ≤ value (x.add y) := by
  refine (rank_le usable_f64 _ _).1 (le_add_rank usable_f64 hx (finite_cases hy).1 ?_)
  have := (rank_le usable_f64 (Flt.zero .f64) y).2 (by rw [value_zero']; exact h)
  simpa [Flt.zero, Flt.rank] using this

theorem fold_increases : ∀ (xs : List F64) (s : F64), (xs.foldl Flt.add s).isFinite = true → s.isFinite = true ∧
    (∀ x ∈ xs, x.isFinite = true)
  | [], s, h => ⟨h, by simp⟩
  | x :: xs, s, h => by
    obtain ⟨h1, h2⟩ := fold_increases xs _ h
    obtain ⟨h3, h4⟩ := add_args h1
    refine ⟨h3, fun y hy => ?_⟩
    rcases List.mem_cons.1 hy with rfl | hy
    · exact h4
    · exact h2 y hy

/-- A sum of numbers that are not negative is not less than any of them. -/
theorem sum_at_least : ∀ (xs : List F64) (s : F64), (xs.foldl Flt.add s).isFinite = true → 0 ≤ value s →
    (∀ x ∈ xs, 0 ≤ value x) → value s ≤ value (xs.foldl Flt.add s) ∧ ∀ x ∈ xs, value x ≤ value (xs.foldl Flt.add s)
  | [], s, _, _, _ => ⟨le_refl _, by simp⟩
  | x :: xs, s, hf, hs, h => by
    obtain ⟨h1, _⟩ := fold_increases xs _ hf
    obtain ⟨fs, fx⟩ := add_args h1
    have a := value_le_add fs fx (h x (by simp))
    have b := value_le_add fx fs hs
    have e : value (x.add s) = value (s.add x) := by
      have := add_comm' usable_f64 fx (finite_cases fs).1
      rw [this]
    rw [e] at b
    obtain ⟨i1, i2⟩ := sum_at_least xs (s.add x) hf (hs.trans a) fun y hy => h y (by simp [hy])
    refine ⟨a.trans i1, fun y hy => ?_⟩
    rcases List.mem_cons.1 hy with rfl | hy
    · exact b.trans i1
    · exact i2 y hy

theorem square_nonneg {x : F64} (h : (x.mul x).isFinite = true) : 0 ≤ value (x.mul x) := by
  have hx := (mul_args h).1
  have hr := mul_rounds usable_f64 x x hx hx
  by_contra hc
  rw [not_le] at hc
  have := hr.nearest h (Flt.zero .f64) (by decide)
  have h0 := mul_self_nonneg (value x)
  rw [value_zero', sub_zero, abs_of_nonneg (by linarith), abs_of_nonneg h0] at this
  linarith

/-- A diagonal entry is positive if two of the points differ in this coordinate. -/
theorem diagonal_positive {ps : List (P3 F64)} {f : P3 F64 → F64} (hf : AtMostPow 150 (entryOf ps f f)) {p q : P3 F64}
    (hp : p ∈ ps) (hq : q ∈ ps) (h : 1 / 2 ^ 500 ≤ |value (f p) - value (f q)|) : 0 < value (entryOf ps f f) := by
  have hone : (FloatFormat.f64.one : ℚ) = 2 ^ 1074 := by rw [one_eq usable_f64]; norm_num [bias, FloatFormat.f64]
  unfold entryOf at hf ⊢
  generalize f (centerOf ps) = c at hf ⊢
  obtain ⟨_, hfin⟩ := fold_increases _ _ hf.1
  have hsq : ∀ r ∈ ps, (((f r).sub c).mul ((f r).sub c)).isFinite = true := fun r hr => hfin _ (List.mem_map_of_mem hr)
  obtain ⟨_, hall⟩ := sum_at_least _ _ hf.1 (by rw [value_zero']) (by
    intro x hx
    obtain ⟨r, hr, rfl⟩ := List.mem_map.1 hx
    exact square_nonneg (hsq r hr))
  obtain ⟨r, hr, hd⟩ : ∃ r ∈ ps, 1 / 2 ^ 501 ≤ |value (f r) - value c| := by
    by_contra hc
    push Not at hc
    have h1 := hc p hp
    have h2 := hc q hq
    have h3 : |value (f p) - value (f q)| ≤ |value (f p) - value c| + |value (f q) - value c| := by
      rw [abs_sub_comm (value (f q))]
      exact abs_sub_le _ _ _
    have h4 : (1 : ℚ) / 2 ^ 500 = 1 / 2 ^ 501 + 1 / 2 ^ 501 := by
      rw [pow_succ (2 : ℚ) 500, ← div_div, add_halves]
    rw [h4] at h
    exact absurd (h.trans h3) (not_le.2 (add_lt_add h1 h2))
  have hs := hsq r hr
  have hdf := (mul_args hs).1
  obtain ⟨f1, f2⟩ : (f r).isFinite = true ∧ c.isFinite = true := sub_args hdf
  have d1 := rounds_away (sub_rounds usable_f64 _ _ f1 f2) hdf hd (by
    rw [hone]; exact one_div_le_one_div_of_le (by positivity) (pow_le_pow_right₀ (by norm_num) (by norm_num)))
  have d2 := rounds_away (mul_rounds usable_f64 _ _ hdf hdf) hs (m := 1 / 2 ^ 1004) (by
    rw [abs_mul]
    refine le_trans (le_of_eq ?_) (mul_le_mul d1 d1 (by positivity) (abs_nonneg _))
    rw [div_div, div_mul_div_comm, one_mul, ← pow_succ, ← pow_add]) (by
    rw [hone]; exact one_div_le_one_div_of_le (by positivity) (pow_le_pow_right₀ (by norm_num) (by norm_num)))
  rw [abs_of_nonneg (square_nonneg hs)] at d2
  have d3 := hall _ (List.mem_map_of_mem (f := fun p => ((f p).sub c).mul ((f p).sub c)) hr)
  have : (0 : ℚ) < 1 / 2 ^ 1004 / 2 := by positivity
  exact this.trans_le (d2.trans d3)

/-! ## Entries and the trace -/

/-- A product is at most as large as one of the two squares, also after rounding. -/
theorem product_le {F : FloatFormat} (hF : Usable F) {x y : Flt F} (hx : x.isFinite = true) (hy : y.isFinite = true) :
    |value (x.mul y)| ≤ |value (x.mul x)| ∨ |value (x.mul y)| ≤ |value (y.mul y)| := by
  have hone : (0 : ℚ) < F.one := by exact_mod_cast F.one_pos
  have key : ∀ {z : Flt F}, z.isFinite = true → (x.sunits * y.sunits).natAbs ≤ (z.sunits * z.sunits).natAbs →
      |value (x.mul y)| ≤ |value (z.mul z)| := by
    intro z hz h
    rw [Pasture.value_abs hF, Pasture.value_abs hF, mul_eq hx hy, mul_eq hz hz, ofUnits_mag, ofUnits_mag]
    refine div_le_div_of_nonneg_right ?_ hone.le
    exact_mod_cast (FloatFormat.units_strictMono F).monotone (roundMag_mono F.one_pos F.one_pos hF.1 (Nat.mul_le_mul_right _ h))
  rcases le_total x.sunits.natAbs y.sunits.natAbs with h | h
  · refine .inr (key hy ?_)
    rw [Int.natAbs_mul, Int.natAbs_mul]
    exact Nat.mul_le_mul_right _ h
  · refine .inl (key hx ?_)
    rw [Int.natAbs_mul, Int.natAbs_mul]
    exact Nat.mul_le_mul_left _ h

/-- The terms of a diagonal entry. -/
theorem diagonal_terms {ps : List (P3 F64)} {f : P3 F64 → F64} (hf : (entryOf ps f f).isFinite = true) :
    0 ≤ value (entryOf ps f f) ∧ ∀ p ∈ ps, (((f p).sub (f (centerOf ps))).mul ((f p).sub (f (centerOf ps)))).isFinite = true ∧
      value (((f p).sub (f (centerOf ps))).mul ((f p).sub (f (centerOf ps)))) ≤ value (entryOf ps f f) := by
  unfold entryOf at hf ⊢
  generalize f (centerOf ps) = c at hf ⊢
  obtain ⟨_, hfin⟩ := fold_increases _ _ hf
  have hsq : ∀ r ∈ ps, (((f r).sub c).mul ((f r).sub c)).isFinite = true := fun r hr => hfin _ (List.mem_map_of_mem hr)
  obtain ⟨h0, hall⟩ := sum_at_least _ _ hf (by rw [value_zero']) (by
    intro x hx
    obtain ⟨r, hr, rfl⟩ := List.mem_map.1 hx
    exact square_nonneg (hsq r hr))
  rw [value_zero'] at h0
  exact ⟨h0, fun p hp => ⟨hsq p hp, hall _ (List.mem_map_of_mem (f := fun p => ((f p).sub c).mul ((f p).sub c)) hp)⟩⟩

/-- No entry is much larger than the diagonal entries. -/
theorem entry_le {ps : List (P3 F64)} (hN : ps.length ≤ 2 ^ 20) {f g : P3 F64 → F64} {D : ℚ} (hf : AtMostPow 150 (entryOf ps f f))
    (hg : AtMostPow 150 (entryOf ps g g)) (hfD : value (entryOf ps f f) ≤ D) (hgD : value (entryOf ps g g) ≤ D)
    (hD : D ≤ 2 ^ 160) : |value (entryOf ps f g)| ≤ 2 ^ 21 * D := by
  obtain ⟨f0, f1⟩ := diagonal_terms hf.1
  obtain ⟨_, g1⟩ := diagonal_terms hg.1
  have h0 : 0 ≤ D := f0.trans hfD
  unfold entryOf
  refine (within_total h0 (hD.trans (pow_le_pow_right₀ (by norm_num) (by norm_num))) (by rw [List.length_map]; exact hN) ?_).2
  intro x hx
  obtain ⟨p, hp, rfl⟩ := List.mem_map.1 hx
  obtain ⟨a1, a2⟩ := f1 p hp
  obtain ⟨b1, b2⟩ := g1 p hp
  refine ⟨mul_finite usable_f64.1 a1 b1, ?_⟩
  rw [← abs_of_nonneg (square_nonneg a1)] at a2
  rw [← abs_of_nonneg (square_nonneg b1)] at b2
  rcases product_le usable_f64 (mul_args a1).1 (mul_args b1).1 with e | e
  · exact e.trans (a2.trans hfD)
  · exact e.trans (b2.trans hgD)

/-- The trace is at least each diagonal entry. -/
theorem trace_le {a : Mat3 F64} (h : SizedMatrix a) (h0 : 0 ≤ value a.row0.x) (h1 : 0 ≤ value a.row1.y) (h2 : 0 ≤ value a.row2.z) :
    value a.row0.x ≤ value (coefficient2 a) ∧ value a.row1.y ≤ value (coefficient2 a) ∧ value a.row2.z ≤ value (coefficient2 a) := by
  have hs : AtMostPow 152 (a.row0.x.add a.row1.y) := within_add (m := 150) h.a00 h.a11 (by norm_num) (by norm_num) (by norm_num)
  have e1 := value_le_add h.a00.1 h.a11.1 h1
  have e2 := value_le_add h.a11.1 h.a00.1 h0
  rw [add_comm' usable_f64 h.a11.1 h.a00.notNaN] at e2
  have e3 := value_le_add hs.1 h.a22.1 h2
  have e4 := value_le_add h.a22.1 hs.1 (h0.trans e1)
  rw [add_comm' usable_f64 h.a22.1 hs.notNaN] at e4
  exact ⟨e1.trans e3, e2.trans e3, e4⟩

/-- No entry is much larger than the trace. -/
def Balanced (a : Mat3 F64) : Prop :=
  ∀ x ∈ entries a, |value x| ≤ 2 ^ 21 * value (coefficient2 a)

theorem balanced_of {ps : List (P3 F64)} (hN : ps.length ≤ 2 ^ 20) (h : SizedMatrix (matrixOf ps)) : Balanced (matrixOf ps) := by
  have dx := diagonal_terms (f := P3.x) h.a00.1
  have dy := diagonal_terms (f := P3.y) h.a11.1
  have dz := diagonal_terms (f := P3.z) h.a22.1
  obtain ⟨tx, ty, tz⟩ := trace_le h dx.1 dy.1 dz.1
  have hT : value (coefficient2 (matrixOf ps)) ≤ 2 ^ 160 :=
    (le_abs_self _).trans ((coefficient2_sized h).mono (by norm_num)).2
  unfold Balanced
  generalize value (coefficient2 (matrixOf ps)) = T at tx ty tz hT ⊢
  have ex : value (entryOf ps P3.x P3.x) ≤ T := tx
  have ey : value (entryOf ps P3.y P3.y) ≤ T := ty
  have ez : value (entryOf ps P3.z P3.z) ≤ T := tz
  intro x hx
  unfold entries at hx
  simp only [List.mem_cons, List.not_mem_nil, or_false] at hx
  rcases hx with rfl | rfl | rfl | rfl | rfl | rfl | rfl | rfl | rfl
  exacts [entry_le hN h.a00 h.a00 ex ex hT, entry_le hN h.a11 h.a00 ey ex hT, entry_le hN h.a22 h.a00 ez ex hT,
    entry_le hN h.a11 h.a00 ey ex hT, entry_le hN h.a11 h.a11 ey ey hT, entry_le hN h.a11 h.a22 ey ez hT,
    entry_le hN h.a22 h.a00 ez ex hT, entry_le hN h.a11 h.a22 ey ez hT, entry_le hN h.a22 h.a22 ez ez hT]

theorem positive_units {x : F64} (h : 0 < value x) : 1 / (FloatFormat.f64.one : ℚ) ≤ value x := by
  have hone : (0 : ℚ) < FloatFormat.f64.one := by exact_mod_cast FloatFormat.one_pos
  rw [value_eq usable_f64] at h ⊢
  refine div_le_div_of_nonneg_right ?_ hone.le
  have : 0 < x.sunits := by
    have := (div_pos_iff_of_pos_right hone).1 h
    exact_mod_cast this
  exact_mod_cast this

theorem curvature_finite {x s t : F64} (hx : AtMostPow 325 x) (hs : AtMostPow 150 s) (ht : AtMostPow 154 t) (h0 : 0 < value t)
    (h : |value s| ≤ 2 ^ 21 * value t) : ((x.mul s).div t).isFinite = true := by
  have hm := within_mul hx hs (by norm_num)
  have hT := positive_units h0
  have hq : |value x * value s| ≤ 2 ^ 346 * value t := by
    rw [abs_mul]
    refine (mul_le_mul hx.2 h (abs_nonneg _) (by positivity)).trans (le_of_eq ?_)
    rw [← mul_assoc, ← pow_add]
  have hone : (0 : ℚ) < FloatFormat.f64.one := by exact_mod_cast FloatFormat.one_pos
  have hbig : value t ≤ 2 ^ 346 * value t := le_mul_of_one_le_left h0.le (one_le_pow₀ (by norm_num))
  have herr : |value x * value s - value (x.mul s)| ≤ 2 ^ 346 * value t := by
    rcases rounds_error usable_f64 (mul_rounds usable_f64 x s hx.1 hs.1) hm.1 with e | e
    · exact e.trans ((div_le_self (abs_nonneg _) (one_le_pow₀ (by norm_num))).trans hq)
    · refine e.trans (le_trans ?_ (hT.trans hbig))
      exact one_div_le_one_div_of_le hone (by linarith)
  have hv : |value (x.mul s)| ≤ 2 ^ 347 * value t := by
    have h1 := abs_sub_abs_le_abs_sub (value (x.mul s)) (value x * value s)
    rw [abs_sub_comm] at h1
    rw [pow_succ (2 : ℚ) 346]
    linarith
  refine (within_rounds (k := 347) (div_rounds usable_f64 _ _ hm.1 ht.1 h0.ne') (by norm_num) ?_).1
  rw [abs_div, abs_of_pos h0]
  exact (div_le_iff₀ h0).2 hv

/-! ## The estimate -/

theorem entries_sized {a : Mat3 F64} (h : SizedMatrix a) : ∀ x ∈ entries a, AtMostPow 150 x := by
  intro x hx
  unfold entries at hx
  simp only [List.mem_cons, List.not_mem_nil, or_false] at hx
  rcases hx with rfl | rfl | rfl | rfl | rfl | rfl | rfl | rfl | rfl
  exacts [h.a00, h.a10, h.a20, h.a01, h.a11, h.a21, h.a02, h.a12, h.a22]

theorem largest_sized {a : Mat3 F64} (h : SizedMatrix a) : AtMostPow 150 (largestEntry a) := by
  obtain ⟨h1, h2, h3⟩ := largest_entry fun x hx => (entries_sized h x hx).1
  refine ⟨h1, ?_⟩
  rw [abs_of_nonneg ((abs_nonneg _).trans (h2 a.row0.x (by simp [entries])))]
  exact h3 _ fun x hx => (entries_sized h x hx).2

theorem plane_returns {trig : Trig F64} (ht : SaneTrig trig) {a : Mat3 F64} (h : SizedMatrix a) (hb : Balanced a) :
    ∃ c, solvePlaneParameter trig a = .ok (largestEigenVector (scaled a (largestEntry a)), c) ∧ c.isFinite = true ∧
      c.neg = false := by
  obtain ⟨v, hv, hx⟩ := solve_returns ht h
  unfold solvePlaneParameter eigen3x3
  rw [hv]
  refine ⟨_, rfl, ?_, ?_⟩
  · split
    · decide
    · rename_i he
      have hs : AtMostPow 154 (coefficient2 a) := coefficient2_sized h
      have he : ¬Flt.feq (coefficient2 a) (Flt.zero .f64) = true := he
      rw [feq_iff hs.1 (by decide), value_zero'] at he
      obtain ⟨_, l2, l3⟩ := largest_entry fun x hx => (entries_sized h x hx).1
      have l0 := (abs_nonneg _).trans (l2 a.row0.x (by simp [entries]))
      have ht : 0 < value (coefficient2 a) := by
        have h0 := (abs_nonneg _).trans (hb a.row0.x (by simp [entries]))
        exact lt_of_le_of_ne (nonneg_of_mul_nonneg_right h0 (by norm_num)) (Ne.symm he)
      exact curvature_finite hx (largest_sized h) hs ht (by rw [abs_of_nonneg l0]; exact l3 _ hb)
  · split <;> rfl

theorem sized_of {ps : List (P3 F64)} (h3 : 3 ≤ ps.length) (hN : ps.length ≤ 2 ^ 20) (hm : ∀ p ∈ ps, Moderate p) :
    SizedMatrix (matrixOf ps) := by
  obtain ⟨h1, h2, h3, h4, h5, h6⟩ := matrix_sized h3 hN hm
  exact ⟨h1, h2, h3, h2, h4, h5, h3, h5, h6⟩

theorem apart_entry {ps : List (P3 F64)} (h : SizedMatrix (matrixOf ps)) {p q : P3 F64} (hp : p ∈ ps) (hq : q ∈ ps)
    (ha : Apart p q) : ∃ x ∈ entries (matrixOf ps), value x ≠ 0 := by
  rcases ha with ha | ha | ha
  · exact ⟨_, by simp [entries, matrixOf], (diagonal_positive (f := P3.x) h.a00 hp hq ha).ne'⟩
  · exact ⟨entryOf ps P3.y P3.y, by simp [entries, matrixOf], (diagonal_positive (f := P3.y) h.a11 hp hq ha).ne'⟩
  · exact ⟨entryOf ps P3.z P3.z, by simp [entries, matrixOf], (diagonal_positive (f := P3.z) h.a22 hp hq ha).ne'⟩

theorem estimation_dense {trig : Trig F64} {ps : List (P3 F64)} (h3 : 3 ≤ ps.length) (hd : isDense ps = true) :
    normalEstimation trig ps = solvePlaneParameter trig (matrixOf ps) := by
  unfold normalEstimation
  rw [covariance_dense h3 hd]
  rfl

/-! ## NaN coefficients -/

theorem solve_nan_coefficients (trig : Trig F64) {a : Mat3 F64} (h0 : (coefficient0 a).isNaN = true)
    (h1 : (coefficient1 a).isNaN = true) : solvePlaneParameter trig a = panicked := by
  have hroot : (cubicRoots trig (coefficient0 a) (coefficient1 a) (coefficient2 a)).x.isNaN = true := by
    generalize coefficient1 a = c1 at h1
    unfold cubicRoots
    simp only [Number.ofInt, Number.half, Arith.mul, Arith.add, Arith.sub, Arith.div, Arith.sqrt, Arith.neg, Arith.lt, Arith.zero]
    refine add_nan (.inr (mul_nan (.inl (mul_nan (.inr ?_)))))
    have hal : ∀ y z : F64, ((c1.sub y).mul z).isNaN = true := fun y z => mul_nan (.inl (sub_nan (.inl h1)))
    generalize (Flt.ofInt .f64 1).div (Flt.ofInt .f64 3) = t
    have hal := hal ((coefficient2 a).mul ((coefficient2 a).mul t)) t
    generalize (c1.sub ((coefficient2 a).mul ((coefficient2 a).mul t))).mul t = x at hal
    have hlt : ¬Flt.lt (Flt.zero .f64) x = true := by
      unfold Flt.lt
      rw [hal]
      simp
    rw [if_neg hlt]
    have hn : x.negate.isNaN = true := hal
    unfold Flt.sqrt
    rw [if_pos hn]
    decide
  unfold solvePlaneParameter eigen3x3 solvePolynomial
  dsimp only
  have hlt : ¬Arith.lt (Arith.abs (coefficient0 a)) (Number.epsilon : F64) = true := by
    show ¬Flt.lt (Flt.abs (coefficient0 a)) _ = true
    unfold Flt.lt
    have : (Flt.abs (coefficient0 a)).isNaN = true := h0
    rw [this]
    simp
  rw [if_neg hlt]
  generalize cubicRoots trig (coefficient0 a) (coefficient1 a) (coefficient2 a) = r at hroot
  have : sort3 r = panicked := by
    unfold sort3
    rw [if_pos]
    show (Flt.isNaN r.x || _ || _) = true
    rw [hroot]
    rfl
  rw [this]
  rfl

/-! ## Points at the same position -/

theorem replicate_sum {x : F64} {a : Int} (hx : Whole x a) : ∀ (n : Nat) {s : F64} {b : Int}, Whole s b →
    |b| + n * |a| ≤ 2 ^ 53 → Whole ((List.replicate n x).foldl Flt.add s) (b + n * a)
  | 0, s, b, hs, _ => by simpa using hs
  | n + 1, s, b, hs, h => by
    have h1 : |b + a| ≤ |b| + |a| := abs_add_le _ _
    have h2 : (0 : Int) ≤ n * |a| := mul_nonneg (by omega) (abs_nonneg a)
    have hc : |b + a| + n * |a| ≤ 2 ^ 53 := by push_cast at h; linarith
    have := replicate_sum hx n (hs.add hx (by linarith)) hc
    rw [List.replicate_succ, List.foldl_cons]
    have e : b + ((n + 1 : Nat) : Int) * a = b + a + n * a := by push_cast; ring
    rw [e]
    exact this

theorem replicate_mean {x : F64} {a : Int} (hx : Whole x a) {n : Nat} (hn : 0 < n) (h : n * |a| ≤ 2 ^ 53) (hN : n ≤ 2 ^ 53) :
    Whole (Flt.div ((List.replicate n x).foldl Flt.add (Flt.zero .f64)) (Flt.ofInt .f64 n)) a := by
  have hs := replicate_sum hx n whole_zero (by simpa using h)
  have hw := whole_of_int (z := n) (by rw [abs_of_nonneg (by omega)]; exact_mod_cast hN)
  have hn' : (n : ℚ) ≠ 0 := by exact_mod_cast hn.ne'
  refine whole_rounds (div_rounds usable_f64 _ _ hs.finite hw.finite (by rw [hw.value_eq]; exact_mod_cast hn.ne')) ?_ ?_
  · rw [hs.value_eq, hw.value_eq]
    push_cast
    rw [zero_add, mul_comm, mul_div_assoc, div_self hn', mul_one]
  · have h0 := abs_nonneg a
    have : 1 * |a| ≤ n * |a| := mul_le_mul_of_nonneg_right (by omega) h0
    linarith

/-- A sum of zeros, with or without a sign. -/
theorem zero_sum : ∀ xs : List F64, (∀ x ∈ xs, x.mag = 0) → xs.foldl Flt.add (Flt.zero .f64) = Flt.zero .f64
  | [], _ => rfl
  | x :: xs, h => by
    rw [List.foldl_cons]
    have : Flt.add (Flt.zero .f64) x = Flt.zero .f64 := by
      have hx := h x (by simp)
      obtain ⟨s, m⟩ := x
      obtain rfl : m = 0 := hx
      cases s <;> decide +kernel
    rw [this]
    exact zero_sum xs fun y hy => h y (by simp [hy])

theorem zero_product : ∀ {x y : F64}, x.mag = 0 → y.mag = 0 → (x.mul y).mag = 0
  | ⟨s, _⟩, ⟨t, _⟩, rfl, rfl => by cases s <;> cases t <;> decide +kernel

theorem whole_minus {x y : F64} {a : Int} (hx : Whole x a) (hy : Whole y a) : (x.sub y).mag = 0 := by
  have hs : x.sunits = y.sunits := by
    have h := hx.value_eq.trans hy.value_eq.symm
    exact le_antisymm ((sunits_le_iff usable_f64 x y).2 h.le) ((sunits_le_iff usable_f64 y x).2 h.ge)
  exact sub_cancel hx.finite hy.finite hs

/-- The position of a point, in whole numbers. -/
structure SamePoint (n : Nat) (p : P3 F64) (a b c : Int) : Prop where
  x : Whole p.x a
  y : Whole p.y b
  z : Whole p.z c
  small : n * |a| ≤ 2 ^ 53 ∧ n * |b| ≤ 2 ^ 53 ∧ n * |c| ≤ 2 ^ 53

/-- The covariance matrix of points at the same position. -/
theorem matrix_coincident {n : Nat} {p : P3 F64} {a b c : Int} (h : SamePoint n p a b c) (hn : 0 < n) (hN : n ≤ 2 ^ 53) :
    matrixOf (List.replicate n p) = ⟨⟨.zero .f64, .zero .f64, .zero .f64⟩, ⟨.zero .f64, .zero .f64, .zero .f64⟩,
      ⟨.zero .f64, .zero .f64, .zero .f64⟩⟩ := by
  have mean : ∀ (f : P3 F64 → F64) (z : Int), Whole (f p) z → n * |z| ≤ 2 ^ 53 →
      Whole (Flt.div (((List.replicate n p).map f).foldl Flt.add (Flt.zero .f64)) (Flt.ofInt .f64 (List.replicate n p).length)) z := by
    intro f z hf hz
    rw [List.map_replicate, List.length_replicate]
    exact replicate_mean hf hn hz hN
  have dx : (p.x.sub (centerOf (List.replicate n p)).x).mag = 0 := whole_minus h.x (mean P3.x a h.x h.small.1)
  have dy : (p.y.sub (centerOf (List.replicate n p)).y).mag = 0 := whole_minus h.y (mean P3.y b h.y h.small.2.1)
  have dz : (p.z.sub (centerOf (List.replicate n p)).z).mag = 0 := whole_minus h.z (mean P3.z c h.z h.small.2.2)
  have entry : ∀ f g : P3 F64 → F64, ((f p).sub (f (centerOf (List.replicate n p)))).mag = 0 →
      ((g p).sub (g (centerOf (List.replicate n p)))).mag = 0 → entryOf (List.replicate n p) f g = Flt.zero .f64 := by
    intro f g hf hg
    apply zero_sum
    intro x hx
    obtain ⟨q, hq, rfl⟩ := List.mem_map.1 hx
    obtain rfl := List.eq_of_mem_replicate hq
    exact zero_product hf hg
  unfold matrixOf
  rw [entry P3.x P3.x dx dx, entry P3.y P3.x dy dx, entry P3.z P3.x dz dx, entry P3.y P3.y dy dy, entry P3.y P3.z dy dz,
    entry P3.z P3.z dz dz]

/-- The result if the determinant is tiny and the trace is zero. -/
theorem plane_flat {α : Type} [Number α] (trig : Trig α) (m : Mat3 α)
    (hc : Arith.lt (Arith.abs (coefficient0 m)) (Number.epsilon : α) = true)
    (he : Arith.eq (Arith.add (Arith.add m.row0.x m.row1.y) m.row2.z) (Arith.zero : α) = true) :
    solvePlaneParameter trig m = .ok (largestEigenVector (scaled m (largestEntry m)), Arith.zero) := by
  unfold solvePlaneParameter eigen3x3 solvePolynomial
  dsimp only
  rw [if_pos hc]
  show Except.ok (_, if _ then _ else _) = _
  rw [if_pos he]

end Normals

end Pasture
