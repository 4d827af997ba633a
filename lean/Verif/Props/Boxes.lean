import Verif.Lemmas.Boxes

/-!
# C77, C79: bounding boxes
-/

namespace Pasture.Props

open Spec Spec.Boxes Pasture.Boxes Flt Tiles3d

/-! ## C77: bounding boxes of tilesets -/

/-- **C77, with an error.** The bounding box made from the bounds of points is upright and contains every point of the
    bounds, up to an error of `M / 2 ^ 50` where `M` is the largest coordinate. -/
theorem C77_partial {b : AABB F64} (hb : FiniteBox b) {M : ℚ} (hM : M ≤ 2 ^ 998) (h1 : Bounded M b.min) (h2 : Bounded M b.max) :
    Upright (.ofAABB b) ∧ ∀ p, Inside b p → InBox (M / 2 ^ 50 + 1 / 2 ^ 1074) (.ofAABB b) p := by
  have hz : value (Flt.zero .f64) = 0 := by simpa using whole_zero.value_eq
  refine ⟨⟨hz, hz, hz, hz, hz, hz⟩, ?_⟩
  rintro p ⟨p1, p2, p3⟩
  obtain ⟨⟨l1, l2, l3⟩, u1, u2, u3⟩ := hb
  exact ⟨within_error l1 u1 h1.1 h2.1 hM p1, within_error l2 u2 h1.2.1 h2.2.1 hM p2,
    within_error l3 u3 h1.2.2 h2.2.2 hM p3⟩

theorem whole_of {M : Nat} {x : F64} (h : WholeNumber M x) : ∃ z, Whole x z ∧ |z| ≤ M := by
  obtain ⟨h1, z, h2, h3⟩ := h
  exact ⟨z, ⟨h1, h2⟩, by rw [Int.abs_eq_natAbs]; omega⟩

/-- **C77, exactly.** For whole coordinates up to `2 ^ 52`, the bounding box and the bounds contain the same points. -/
theorem C77_whole {b : AABB F64} (h1 : WholePoint (2 ^ 52) b.min) (h2 : WholePoint (2 ^ 52) b.max) (p : P3 F64) :
    InBox 0 (.ofAABB b) p ↔ Inside b p := by
  obtain ⟨a1, a2, a3⟩ := h1
  obtain ⟨c1, c2, c3⟩ := h2
  obtain ⟨_, w1, v1⟩ := whole_of a1
  obtain ⟨_, w2, v2⟩ := whole_of a2
  obtain ⟨_, w3, v3⟩ := whole_of a3
  obtain ⟨_, x1, y1⟩ := whole_of c1
  obtain ⟨_, x2, y2⟩ := whole_of c2
  obtain ⟨_, x3, y3⟩ := whole_of c3
  exact and_congr (within_whole w1 x1 v1 y1 p.x) (and_congr (within_whole w2 x2 v2 y2 p.y) (within_whole w3 x3 v3 y3 p.z))

namespace BoxExample

/-- 0.1 and 0.2. -/
def tenth : F64 := ⟨false, 0x3fb999999999999a⟩
def fifth : F64 := ⟨false, 0x3fc999999999999a⟩

/-- The largest number. -/
def huge : F64 := AABB.f64Max

/-- A cube. -/
def cube (lo hi : F64) : AABB F64 := ⟨⟨lo, lo, lo⟩, ⟨hi, hi, hi⟩⟩

/-- A whole number. -/
def n (z : Int) : F64 := Flt.ofInt .f64 z

/-- A box whose sides have different lengths. -/
def long : AABB F64 := ⟨⟨n (-1), n 0, n 7⟩, ⟨n 4, n 3, n 19⟩⟩

theorem long_whole : WholePoint (2 ^ 51) long.min ∧ WholePoint (2 ^ 51) long.max := by
  have h : ∀ z : Int, z.natAbs ≤ 2 ^ 51 → WholeNumber (2 ^ 51) (n z) := by
    intro z hz
    have := whole_of_int (z := z) (by rw [Int.abs_eq_natAbs]; omega)
    exact ⟨this.finite, z, this.value_eq, hz⟩
  exact ⟨⟨h _ (by decide), h _ (by decide), h _ (by decide)⟩, ⟨h _ (by decide), h _ (by decide), h _ (by decide)⟩⟩

end BoxExample

open BoxExample

/-- The theorems apply to boxes with different sides. -/
example : WholePoint (2 ^ 52) long.min ∧ WholePoint (2 ^ 52) long.max ∧ FiniteBox long ∧ Bounded 20 long.min ∧
    Bounded 20 long.max ∧ (20 : ℚ) ≤ 2 ^ 998 := by
  have hw : ∀ {x}, WholeNumber (2 ^ 51) x → WholeNumber (2 ^ 52) x := by
    rintro x ⟨h, z, h1, h2⟩
    exact ⟨h, z, h1, by omega⟩
  obtain ⟨⟨a1, a2, a3⟩, ⟨b1, b2, b3⟩⟩ := long_whole
  refine ⟨⟨hw a1, hw a2, hw a3⟩, ⟨hw b1, hw b2, hw b3⟩, ⟨⟨a1.1, a2.1, a3.1⟩, ⟨b1.1, b2.1, b3.1⟩⟩, ?_, ?_, ?_⟩
  · unfold Bounded; decide +kernel
  · unfold Bounded; decide +kernel
  · calc (20 : ℚ) ≤ 2 ^ 5 := by norm_num
      _ ≤ 2 ^ 998 := pow_le_pow_right₀ (by norm_num) (by norm_num)

/-- **C77 is violated by rounding**: the box made from the bounds from 0.1 to 0.2 does not contain the corner at 0.1. -/
theorem C77_violated : ∃ (b : AABB F64) (p : P3 F64), FiniteBox b ∧ Ordered b ∧ Inside b p ∧ b.contains p = true ∧
    ¬ InBox 0 (.ofAABB b) p := by
  refine ⟨cube tenth fifth, ⟨tenth, tenth, tenth⟩, ?_, ?_, ?_, ?_, ?_⟩
  · unfold FiniteBox FiniteCorner; decide +kernel
  · unfold Ordered; decide +kernel
  · unfold Inside Between; decide +kernel
  · decide +kernel
  · unfold InBox Within; decide +kernel

/-- **C77 is violated by large bounds**: they are finite, but the axes of the bounding box are not. -/
theorem C77_overflow_violated : ∃ b : AABB F64, FiniteBox b ∧ Ordered b ∧ (BoundingBox.ofAABB b).x.x.isInf = true ∧
    (BoundingBox.ofAABB b).y.y.isInf = true ∧ (BoundingBox.ofAABB b).z.z.isInf = true := by
  refine ⟨cube huge.negate huge, ?_, ?_, ?_⟩
  · unfold FiniteBox FiniteCorner; decide +kernel
  · unfold Ordered; decide +kernel
  · decide +kernel

/-! ## C79: approximate containment and cubes -/

/-- **C79.** A point in the bounds is approximately in the bounds, for every `epsilon` that is not negative. This is true of
    infinite bounds and points as well. -/
theorem C79_contains {b : AABB F64} {p : P3 F64} {e : F64} (h : b.contains p = true) (he : Flt.le (Flt.zero .f64) e = true) :
    b.containsApprox p e = true := by
  have habove : ∀ {x y : F64}, Flt.le x y = true → Flt.lt e (x.sub y) = false := by
    intro x y h
    exact not_above h he
  unfold AABB.contains at h
  simp only [Bool.and_eq_true] at h
  obtain ⟨⟨⟨⟨⟨h1, h2⟩, h3⟩, h4⟩, h5⟩, h6⟩ := h
  unfold AABB.containsApprox
  rw [not_below h1 he, not_below h3 he, not_below h5 he, habove h2, habove h4, habove h6]
  rfl

/-- **C79.** A point that is no further away from the bounds than `epsilon` is approximately in the bounds. -/
theorem C79_near {b : AABB F64} {p : P3 F64} {e : F64} (hb : FiniteBox b) (hp : FiniteCorner p) (he : e.isFinite = true)
    (h : Near (value e) b p) : b.containsApprox p e = true := by
  obtain ⟨⟨l1, l2, l3⟩, u1, u2, u3⟩ := hb
  obtain ⟨p1, p2, p3⟩ := hp
  obtain ⟨⟨n1, n2⟩, ⟨n3, n4⟩, ⟨n5, n6⟩⟩ := h
  have hlo : ∀ {x y : F64}, x.isFinite = true → y.isFinite = true → value y - value e ≤ value x →
      Flt.lt (x.sub y) e.negate = false := by
    intro x y hx hy hv
    exact rounds_ge (sub_rounds usable_f64 x y hx hy) (negate_finite he) (by rw [value_negate]; linarith)
  have hhi : ∀ {x y : F64}, x.isFinite = true → y.isFinite = true → value x ≤ value y + value e →
      Flt.lt e (x.sub y) = false := by
    intro x y hx hy hv
    exact rounds_le (sub_rounds usable_f64 x y hx hy) he (by linarith)
  unfold AABB.containsApprox
  rw [hlo p1 l1 n1, hlo p2 l2 n3, hlo p3 l3 n5, hhi p1 u1 n2, hhi p2 u2 n4, hhi p3 u3 n6]
  rfl

/-- **C79.** A point with finite coordinates that is approximately in the bounds is no further away from them than `epsilon`,
    up to the rounding error of one subtraction. -/
theorem C79_far_partial {b : AABB F64} {p : P3 F64} {e : F64} (hb : FiniteBox b) (hp : FiniteCorner p) (he : e.isFinite = true)
    (h0 : 0 ≤ value e) (h : b.containsApprox p e = true) : Near (value e * (1 + 1 / 2 ^ 52)) b p := by
  obtain ⟨⟨l1, l2, l3⟩, u1, u2, u3⟩ := hb
  obtain ⟨p1, p2, p3⟩ := hp
  unfold AABB.containsApprox at h
  simp only [Bool.not_eq_true', Bool.or_eq_false_iff] at h
  obtain ⟨⟨⟨⟨⟨h1, h2⟩, h3⟩, h4⟩, h5⟩, h6⟩ := h
  have g1 := difference_ge p1 l1 he h0 h1
  have g2 := difference_le p1 u1 he h0 h2
  have g3 := difference_ge p2 l2 he h0 h3
  have g4 := difference_le p2 u2 he h0 h4
  have g5 := difference_ge p3 l3 he h0 h5
  have g6 := difference_le p3 u3 he h0 h6
  generalize value e * (1 + 1 / 2 ^ 52) = w at *
  refine ⟨⟨?_, ?_⟩, ⟨?_, ?_⟩, ⟨?_, ?_⟩⟩ <;> linarith

/-- **C79 is violated by NaN**: a point without a position is approximately in every box, whatever `epsilon` is. -/
theorem C79_nan_violated (b : AABB F64) (e : F64) :
    b.containsApprox ⟨Flt.nan .f64, Flt.nan .f64, Flt.nan .f64⟩ e = true ∧
      b.contains ⟨Flt.nan .f64, Flt.nan .f64, Flt.nan .f64⟩ = false := by
  have h1 : ∀ x : F64, (Flt.sub (Flt.nan .f64) x).isNaN = true := by
    intro x
    unfold Flt.sub Flt.add
    rw [show (Flt.nan .f64).isNaN = true by decide]
    simp
    decide
  have h2 : ∀ x y : F64, Flt.lt (Flt.sub (Flt.nan .f64) x) y = false ∧ Flt.lt y (Flt.sub (Flt.nan .f64) x) = false := by
    intro x y
    unfold Flt.lt
    rw [h1]
    simp
  constructor
  · unfold AABB.containsApprox
    simp only [(h2 _ _).1, (h2 _ _).2]
    rfl
  · have : Cmp.le b.min.x (Flt.nan .f64) = false := by
      show Flt.le b.min.x (Flt.nan .f64) = false
      unfold Flt.le
      rw [show (Flt.nan .f64).isNaN = true by decide]
      simp
    unfold AABB.contains
    rw [this]
    rfl

/-- **C79: cubes, exactly.** For whole coordinates up to `2 ^ 51`, the cube has sides as long as the longest side of the
    bounds, the same center, and contains them. -/
theorem C79_cubic_whole {b : AABB F64} (h1 : WholePoint (2 ^ 51) b.min) (h2 : WholePoint (2 ^ 51) b.max) (hb : Ordered b) :
    (∀ side ∈ [sideX, sideY, sideZ], side b.asCubic = max (sideX b) (max (sideY b) (sideZ b))) ∧
    value b.asCubic.min.x + value b.asCubic.max.x = value b.min.x + value b.max.x ∧
    value b.asCubic.min.y + value b.asCubic.max.y = value b.min.y + value b.max.y ∧
    value b.asCubic.min.z + value b.asCubic.max.z = value b.min.z + value b.max.z ∧
    ∀ p, Inside b p → Inside b.asCubic p := by
  obtain ⟨a1, a2, a3⟩ := h1
  obtain ⟨c1, c2, c3⟩ := h2
  obtain ⟨m1, w1, v1⟩ := whole_of a1
  obtain ⟨m2, w2, v2⟩ := whole_of a2
  obtain ⟨m3, w3, v3⟩ := whole_of a3
  obtain ⟨n1, x1, y1⟩ := whole_of c1
  obtain ⟨n2, x2, y2⟩ := whole_of c2
  obtain ⟨n3, x3, y3⟩ := whole_of c3
  obtain ⟨o1, o2, o3⟩ := hb
  push_cast at v1 v2 v3 y1 y2 y3
  have e1 := x1.sub w1 ((abs_sub n1 m1).trans (by omega))
  have e2 := x2.sub w2 ((abs_sub n2 m2).trans (by omega))
  have e3 := x3.sub w3 ((abs_sub n3 m3).trans (by omega))
  obtain ⟨l1, l2, l3, l4⟩ := longest (b.max.x.sub b.min.x) (b.max.y.sub b.min.y) (b.max.z.sub b.min.z)
  -- The longest side.
  obtain ⟨s, hs, hs1, hs2⟩ : ∃ s : Int, Whole (AABB.ordMax (b.max.x.sub b.min.x) (AABB.ordMax (b.max.y.sub b.min.y)
      (b.max.z.sub b.min.z))) s ∧ |s| ≤ 2 ^ 52 ∧ (s = n1 - m1 ∨ s = n2 - m2 ∨ s = n3 - m3) := by
    rcases l1 with l | l | l <;> rw [l]
    · exact ⟨_, e1, (abs_sub n1 m1).trans (by omega), .inl rfl⟩
    · exact ⟨_, e2, (abs_sub n2 m2).trans (by omega), .inr (.inl rfl)⟩
    · exact ⟨_, e3, (abs_sub n3 m3).trans (by omega), .inr (.inr rfl)⟩
  rw [e1.value_eq, hs.value_eq] at l2
  rw [e2.value_eq, hs.value_eq] at l3
  rw [e3.value_eq, hs.value_eq] at l4
  have hh := div_two hs.finite
  rw [hs.value_eq] at hh
  obtain ⟨hf, hv⟩ := half_exact hh rfl (hs1.trans (by norm_num))
  -- One axis.
  have axis : ∀ {lo hi : F64} {m n : Int}, Whole lo m → Whole hi n → |m| ≤ 2 ^ 51 → |n| ≤ 2 ^ 51 →
      value (((lo.add hi).div (Flt.ofInt .f64 2)).sub ((AABB.ordMax (b.max.x.sub b.min.x) (AABB.ordMax (b.max.y.sub b.min.y)
        (b.max.z.sub b.min.z))).div (Flt.ofInt .f64 2))) = ((m + n - s : Int) : ℚ) / 2 ∧
      value (((lo.add hi).div (Flt.ofInt .f64 2)).add ((AABB.ordMax (b.max.x.sub b.min.x) (AABB.ordMax (b.max.y.sub b.min.y)
        (b.max.z.sub b.min.z))).div (Flt.ofInt .f64 2))) = ((m + n + s : Int) : ℚ) / 2 := by
    intro lo hi m n hl hh' hm hn
    obtain ⟨c1, c2⟩ := sum_half hl hh' (hm.trans (by norm_num)) (hn.trans (by norm_num))
    have r1 := sub_rounds usable_f64 _ _ c1 hf
    have r2 := add_rounds usable_f64 _ _ c1 hf
    rw [c2, hv] at r1 r2
    have ha := abs_add_le m n
    refine ⟨(half_exact r1 (by push_cast; ring) ?_).2, (half_exact r2 (by push_cast; ring) ?_).2⟩
    · exact (abs_sub (m + n) s).trans (by omega)
    · exact (abs_add_le (m + n) s).trans (by omega)
  obtain ⟨p1, q1⟩ := axis w1 x1 v1 y1
  obtain ⟨p2, q2⟩ := axis w2 x2 v2 y2
  obtain ⟨p3, q3⟩ := axis w3 x3 v3 y3
  have p1' : value b.asCubic.min.x = _ := p1
  have p2' : value b.asCubic.min.y = _ := p2
  have p3' : value b.asCubic.min.z = _ := p3
  have q1' : value b.asCubic.max.x = _ := q1
  have q2' : value b.asCubic.max.y = _ := q2
  have q3' : value b.asCubic.max.z = _ := q3
  have hmax : max (sideX b) (max (sideY b) (sideZ b)) = (s : ℚ) := by
    unfold sideX sideY sideZ
    rw [w1.value_eq, w2.value_eq, w3.value_eq, x1.value_eq, x2.value_eq, x3.value_eq]
    push_cast at l2 l3 l4
    apply le_antisymm
    · exact max_le l2 (max_le l3 l4)
    · rcases hs2 with h | h | h <;> rw [h] <;> push_cast <;> simp
  refine ⟨?_, ?_, ?_, ?_, ?_⟩
  · intro side hside
    rw [hmax]
    simp only [List.mem_cons, List.not_mem_nil, or_false] at hside
    rcases hside with rfl | rfl | rfl
    · unfold sideX; rw [p1', q1']; push_cast; ring
    · unfold sideY; rw [p2', q2']; push_cast; ring
    · unfold sideZ; rw [p3', q3']; push_cast; ring
  · rw [p1', q1', w1.value_eq, x1.value_eq]; push_cast; ring
  · rw [p2', q2', w2.value_eq, x2.value_eq]; push_cast; ring
  · rw [p3', q3', w3.value_eq, x3.value_eq]; push_cast; ring
  · rintro p ⟨⟨i1, i2⟩, ⟨i3, i4⟩, ⟨i5, i6⟩⟩
    rw [w1.value_eq] at i1
    rw [x1.value_eq] at i2
    rw [w2.value_eq] at i3
    rw [x2.value_eq] at i4
    rw [w3.value_eq] at i5
    rw [x3.value_eq] at i6
    push_cast at l2 l3 l4
    refine ⟨⟨?_, ?_⟩, ⟨?_, ?_⟩, ⟨?_, ?_⟩⟩
    · rw [p1']; push_cast; linarith
    · rw [q1']; push_cast; linarith
    · rw [p2']; push_cast; linarith
    · rw [q2']; push_cast; linarith
    · rw [p3']; push_cast; linarith
    · rw [q3']; push_cast; linarith

/-- **C79: cubes, with an error.** The cube contains every point of the bounds, up to an error of `M / 2 ^ 49` where `M` is
    the largest coordinate. -/
theorem C79_cubic_partial {b : AABB F64} (hb : FiniteBox b) {M : ℚ} (hM : M ≤ 2 ^ 997) (h1 : Bounded M b.min)
    (h2 : Bounded M b.max) : ∀ p, Inside b p → Near (M / 2 ^ 49 + 1 / 2 ^ 1073) b.asCubic p := by
  rintro p ⟨p1, p2, p3⟩
  obtain ⟨⟨l1, l2, l3⟩, u1, u2, u3⟩ := hb
  have hM8 : M ≤ 2 ^ 998 := hM.trans (pow_le_pow_right₀ (by norm_num) (by norm_num))
  obtain ⟨a1, a2, a3⟩ := h1
  obtain ⟨c1, c2, c3⟩ := h2
  have size : ∀ {lo hi : F64}, lo.isFinite = true → hi.isFinite = true → |value lo| ≤ M → |value hi| ≤ M →
      (hi.sub lo).isFinite = true ∧ |value (hi.sub lo)| ≤ 2 * M + 2 * M / 2 ^ 53 := by
    intro lo hi hl hh hl' hh'
    obtain ⟨s1, s2⟩ := extent_error hl hh hl' hh' hM8
    refine ⟨s1, ?_⟩
    have hside := side_bound hl' hh'
    have h3 : |value hi - value lo| / 2 ^ 53 ≤ 2 * M / 2 ^ 53 := by gcongr
    have h4 := abs_add_le (value hi - value lo) (value (hi.sub lo) - (value hi - value lo))
    rw [add_sub_cancel] at h4
    linarith
  obtain ⟨e1, f1⟩ := size l1 u1 a1 c1
  obtain ⟨e2, f2⟩ := size l2 u2 a2 c2
  obtain ⟨e3, f3⟩ := size l3 u3 a3 c3
  obtain ⟨m1, m2, m3, m4⟩ := longest (b.max.x.sub b.min.x) (b.max.y.sub b.min.y) (b.max.z.sub b.min.z)
  obtain ⟨t1, t2⟩ : (AABB.ordMax (b.max.x.sub b.min.x) (AABB.ordMax (b.max.y.sub b.min.y) (b.max.z.sub b.min.z))).isFinite = true ∧
      |value (AABB.ordMax (b.max.x.sub b.min.x) (AABB.ordMax (b.max.y.sub b.min.y) (b.max.z.sub b.min.z)))| ≤
        2 * M + 2 * M / 2 ^ 53 := by
    rcases m1 with h | h | h <;> rw [h]
    · exact ⟨e1, f1⟩
    · exact ⟨e2, f2⟩
    · exact ⟨e3, f3⟩
  exact ⟨cube_error l1 u1 a1 c1 hM t1 m2 t2 p1, cube_error l2 u2 a2 c2 hM t1 m3 t2 p2, cube_error l3 u3 a3 c3 hM t1 m4 t2 p3⟩

/-- **C79 is violated by rounding**: the cube of a cube, from 0.1 to 0.2, does not contain its corner. -/
theorem C79_cubic_violated : ∃ (b : AABB F64) (p : P3 F64), FiniteBox b ∧ Ordered b ∧ Inside b p ∧ b.contains p = true ∧
    ¬ Inside b.asCubic p ∧ b.asCubic.contains p = false := by
  refine ⟨cube tenth fifth, ⟨tenth, tenth, tenth⟩, ?_, ?_, ?_, ?_, ?_, ?_⟩
  · unfold FiniteBox FiniteCorner; decide +kernel
  · unfold Ordered; decide +kernel
  · unfold Inside Between; decide +kernel
  · decide +kernel
  · unfold Inside Between; decide +kernel
  · decide +kernel

/-- A point near the corner of a box is accepted, one further away is not. -/
example : (cube (n 1) (n 2)).containsApprox ⟨tenth, n 1, n 2⟩ (n 1) = true ∧
    (cube (n 1) (n 2)).contains ⟨tenth, n 1, n 2⟩ = false ∧
    (cube (n 1) (n 2)).containsApprox ⟨tenth, n 1, n 2⟩ fifth = false ∧ Flt.le (Flt.zero .f64) fifth = true ∧
    (cube (n 1) (n 2)).contains ⟨n 2, n 1, n 2⟩ = true := by decide +kernel

/-- A box of sides 5, 3 and 12. -/
example : Ordered long ∧ WholePoint (2 ^ 51) long.min ∧ WholePoint (2 ^ 51) long.max := by
  refine ⟨?_, long_whole⟩
  unfold Ordered
  decide +kernel

end Pasture.Props
