import Verif.Lemmas.FloatOps
import Verif.Model.Ransac

/-!
# Lemmas: floats that cancel
-/

namespace Pasture

namespace Flt

variable {F : FloatFormat}

theorem roundMag_nothing (den : Nat) : roundMag F 0 den = 0 := by
  unfold roundMag roundDiv
  simp

/-- The number does not depend on the sign of an exact zero. -/
theorem ofUnits_sign (num : Int) (den : Nat) (z w : Bool) :
    (ofUnits F num den z).sunits = (ofUnits F num den w).sunits := by
  unfold ofUnits sunits
  by_cases h : num = 0
  · subst h
    simp [roundMag_nothing, FloatFormat.units_zero]
  · simp [h]

theorem ofUnits_magnitude (num : Int) (den : Nat) (z : Bool) : (ofUnits F num den z).mag = roundMag F num.natAbs den := rfl

theorem ofUnits_zero_mag (den : Nat) (z : Bool) : (ofUnits F 0 den z).mag = 0 := roundMag_nothing den

theorem ofUnits_neg_sunits (num : Int) (den : Nat) (z w : Bool) :
    (ofUnits F (-num) den z).sunits = -(ofUnits F num den w).sunits := by
  unfold ofUnits sunits
  by_cases h : num = 0
  · subst h
    simp [roundMag_nothing, FloatFormat.units_zero]
  · have h1 : -num ≠ 0 := by omega
    simp only [h1, h, if_false, Int.natAbs_neg]
    by_cases h2 : num < 0
    · rw [decide_eq_true h2, decide_eq_false (show ¬ -num < 0 by omega)]
      simp
    · rw [decide_eq_false h2, decide_eq_true (show -num < 0 by omega)]
      simp

theorem sunits_negate (x : Flt F) : (negate x).sunits = -x.sunits := by
  unfold negate sunits
  cases x.neg <;> simp

theorem sunits_zero {x : Flt F} (h : x.mag = 0) : x.sunits = 0 := by
  unfold sunits
  rw [h, FloatFormat.units_zero]
  simp

theorem finite_zero {x : Flt F} (hF : 0 < F.infMag) (h : x.mag = 0) : x.isFinite = true := by
  unfold isFinite
  simp [h, hF]

theorem add_eq {x y : Flt F} (hx : x.isFinite = true) (hy : y.isFinite = true) :
    x.add y = ofUnits F (x.sunits + y.sunits) 1 (x.neg && y.neg) := by
  obtain ⟨x1, x2⟩ := finite_cases hx
  obtain ⟨y1, y2⟩ := finite_cases hy
  simp [add, x1, x2, y1, y2]

theorem mul_eq {x y : Flt F} (hx : x.isFinite = true) (hy : y.isFinite = true) :
    x.mul y = ofUnits F (x.sunits * y.sunits) F.one (x.neg != y.neg) := by
  obtain ⟨x1, x2⟩ := finite_cases hx
  obtain ⟨y1, y2⟩ := finite_cases hy
  simp [mul, x1, x2, y1, y2]

theorem sub_eq {x y : Flt F} (hx : x.isFinite = true) (hy : y.isFinite = true) :
    x.sub y = ofUnits F (x.sunits - y.sunits) 1 (x.neg && !y.neg) := by
  unfold sub
  rw [add_eq hx (negate_finite hy), sunits_negate]
  rfl

/-- Equal numbers cancel. -/
theorem sub_cancel {x y : Flt F} (hx : x.isFinite = true) (hy : y.isFinite = true) (h : x.sunits = y.sunits) :
    (x.sub y).mag = 0 := by
  rw [sub_eq hx hy, h, Int.sub_self]
  exact ofUnits_zero_mag 1 _

/-- A difference the other way round. -/
theorem sub_swap {x y : Flt F} (hx : x.isFinite = true) (hy : y.isFinite = true) : (x.sub y).sunits = -(y.sub x).sunits := by
  rw [sub_eq hx hy, sub_eq hy hx, show x.sunits - y.sunits = -(y.sunits - x.sunits) by omega]
  exact ofUnits_neg_sunits _ _ _ _

theorem sub_swap_mag {x y : Flt F} (hx : x.isFinite = true) (hy : y.isFinite = true) : (x.sub y).mag = (y.sub x).mag := by
  rw [sub_eq hx hy, sub_eq hy hx, ofUnits_magnitude, ofUnits_magnitude]
  congr 1
  omega

theorem nan_notFinite : (nan F).isFinite = false := by
  unfold isFinite nan FloatFormat.nanMag
  simp

theorem isNaN_nan : (nan F).isNaN = true := by
  unfold isNaN nan FloatFormat.nanMag
  simp

theorem inf_notFinite (s : Bool) : (inf F s).isFinite = false := by
  unfold isFinite inf
  simp

theorem notFinite_of_inf {x : Flt F} (h : x.isInf = true) : x.isFinite = false := by
  unfold isInf at h
  unfold isFinite
  simp at h
  simp [h]

theorem finite_iff {x : Flt F} : x.isFinite = true ↔ x.isNaN = false ∧ x.isInf = false := by
  refine ⟨finite_cases, ?_⟩
  rintro ⟨h1, h2⟩
  unfold isNaN at h1
  unfold isInf at h2
  unfold isFinite
  simp only [decide_eq_false_iff_not] at h1 h2
  simp only [decide_eq_true_eq]
  omega

theorem add_args {x y : Flt F} (h : (x.add y).isFinite = true) : x.isFinite = true ∧ y.isFinite = true := by
  unfold add at h
  split at h
  · rw [nan_notFinite] at h; cases h
  next hn =>
  split at h
  next hx =>
    split at h
    · rw [nan_notFinite] at h; cases h
    · rw [notFinite_of_inf hx] at h; cases h
  next hx =>
  split at h
  next hy => rw [notFinite_of_inf hy] at h; cases h
  next hy =>
  simp only [not_or, Bool.not_eq_true] at hn hx hy
  exact ⟨finite_iff.2 ⟨hn.1, hx⟩, finite_iff.2 ⟨hn.2, hy⟩⟩

theorem sub_args {x y : Flt F} (h : (x.sub y).isFinite = true) : x.isFinite = true ∧ y.isFinite = true := by
  unfold sub at h
  exact ⟨(add_args h).1, negate_finite (add_args h).2⟩

theorem mul_args {x y : Flt F} (h : (x.mul y).isFinite = true) : x.isFinite = true ∧ y.isFinite = true := by
  unfold mul at h
  split at h
  · rw [nan_notFinite] at h; cases h
  next hn =>
  split at h
  · split at h
    · rw [nan_notFinite] at h; cases h
    · rw [inf_notFinite] at h; cases h
  next hx =>
  split at h
  · split at h
    · rw [nan_notFinite] at h; cases h
    · rw [inf_notFinite] at h; cases h
  next hy =>
  simp only [not_or, Bool.not_eq_true] at hn hx hy
  exact ⟨finite_iff.2 ⟨hn.1, hx⟩, finite_iff.2 ⟨hn.2, hy⟩⟩

theorem sqrt_args (hF : 0 < F.infMag) {x : Flt F} (h : x.sqrt.isFinite = true) : x.isFinite = true := by
  unfold sqrt at h
  split at h
  · rw [nan_notFinite] at h; cases h
  next hn =>
  split at h
  next h0 => exact finite_zero hF h0
  next h0 =>
  split at h
  · rw [nan_notFinite] at h; cases h
  split at h
  next hi => rw [notFinite_of_inf hi] at h; cases h
  next hi =>
  simp only [Bool.not_eq_true] at hn hi
  exact finite_iff.2 ⟨hn, hi⟩

theorem natAbs_sunits (x : Flt F) : x.sunits.natAbs = F.units x.mag := by
  unfold sunits
  cases x.neg <;> simp

/-- A product does not overflow if both squares don't. -/
theorem mul_finite (hF : 1 ≤ F.mantBits) {x y : Flt F} (hx : (x.mul x).isFinite = true) (hy : (y.mul y).isFinite = true) :
    (x.mul y).isFinite = true := by
  obtain ⟨x1, _⟩ := mul_args hx
  obtain ⟨y1, _⟩ := mul_args hy
  rw [mul_eq x1 x1] at hx
  rw [mul_eq y1 y1] at hy
  rw [mul_eq x1 y1]
  unfold isFinite at hx hy ⊢
  simp only [ofUnits_magnitude, decide_eq_true_eq, Int.natAbs_mul, natAbs_sunits] at hx hy ⊢
  rcases Nat.le_total (F.units x.mag) (F.units y.mag) with h | h
  · exact Nat.lt_of_le_of_lt (roundMag_mono F.one_pos F.one_pos hF (Nat.mul_le_mul_right _ (Nat.mul_le_mul_right _ h))) hy
  · exact Nat.lt_of_le_of_lt (roundMag_mono F.one_pos F.one_pos hF (Nat.mul_le_mul_right _ (Nat.mul_le_mul_left _ h))) hx

/-! ### zeros and NaNs -/

/-- Zero. -/
def IsZero (x : Flt F) : Prop := x.mag = 0

/-- Zero or a NaN. -/
def ZeroOrNaN (x : Flt F) : Prop := x.mag = 0 ∨ x.isNaN = true

theorem IsZero.finite {x : Flt F} (hF : 0 < F.infMag) (h : IsZero x) : x.isFinite = true := finite_zero hF h

theorem IsZero.mul {x y : Flt F} (hF : 0 < F.infMag) (hx : x.isFinite = true) (hy : IsZero y) : IsZero (x.mul y) := by
  unfold IsZero
  rw [mul_eq hx (hy.finite hF), sunits_zero hy, Int.mul_zero]
  exact ofUnits_zero_mag _ _

theorem IsZero.add {x y : Flt F} (hF : 0 < F.infMag) (hx : IsZero x) (hy : IsZero y) : IsZero (x.add y) := by
  unfold IsZero
  rw [add_eq (hx.finite hF) (hy.finite hF), sunits_zero hx, sunits_zero hy]
  exact ofUnits_zero_mag _ _

theorem IsZero.negate {x : Flt F} (hx : IsZero x) : IsZero (negate x) := hx

theorem IsZero.sub {x y : Flt F} (hF : 0 < F.infMag) (hx : IsZero x) (hy : IsZero y) : IsZero (x.sub y) :=
  hx.add hF hy.negate

theorem IsZero.sqrt {x : Flt F} (hF : 0 < F.infMag) (hx : IsZero x) : IsZero x.sqrt := by
  unfold IsZero Flt.sqrt
  rw [(finite_cases (hx.finite hF)).1, if_neg (by simp), if_pos (show x.mag = 0 from hx)]
  exact hx

/-- Zero divided by anything but zero and NaN. -/
theorem IsZero.div {x y : Flt F} (hF : 0 < F.infMag) (hx : IsZero x) (hy : y.isNaN = false) (hy0 : y.mag ≠ 0) :
    IsZero (x.div y) := by
  obtain ⟨x1, x2⟩ := finite_cases (hx.finite hF)
  unfold IsZero Flt.div
  simp only [x1, x2, hy, Bool.false_eq_true, or_self, if_false]
  split
  · rfl
  · rw [sunits_zero hx, Int.mul_zero, Int.zero_mul]
    exact ofUnits_zero_mag _ _

/-- Zero is less than every positive number. -/
theorem IsZero.lt {x y : Flt F} (hF : 0 < F.infMag) (hx : IsZero x) (hy : lt (zero F) y = true) : lt x y = true := by
  unfold IsZero at hx
  have hn := (finite_cases (finite_zero hF hx)).1
  unfold Flt.lt at hy ⊢
  simp only [Bool.and_eq_true, Bool.not_eq_true', decide_eq_true_eq] at hy ⊢
  refine ⟨⟨hn, hy.1.2⟩, ?_⟩
  have : x.rank = (zero F).rank := by
    unfold rank zero
    rw [hx]
    simp
  rw [this]
  exact hy.2

theorem zon_mul {x y : Flt F} (hF : 0 < F.infMag) (hx : ZeroOrNaN x) : ZeroOrNaN (x.mul y) := by
  rcases hx with hx | hx
  · cases hy : y.isNaN with
    | true => exact Or.inr (by unfold Flt.mul; rw [hy]; simp [isNaN_nan])
    | false =>
      cases hi : y.isInf with
      | true =>
        obtain ⟨x1, x2⟩ := finite_cases (finite_zero hF hx)
        refine Or.inr ?_
        unfold Flt.mul
        simp [x1, x2, hy, hi, hx, isNaN_nan]
      | false =>
        refine Or.inl ?_
        have hyf := finite_iff.2 ⟨hy, hi⟩
        rw [mul_eq (finite_zero hF hx) hyf, sunits_zero hx, Int.zero_mul]
        exact ofUnits_zero_mag _ _
  · exact Or.inr (by unfold Flt.mul; rw [hx]; simp [isNaN_nan])

theorem nan_add {x y : Flt F} (h : x.isNaN = true ∨ y.isNaN = true) : (x.add y).isNaN = true := by
  unfold Flt.add
  rw [if_pos h]
  exact isNaN_nan

theorem zon_add {x y : Flt F} (hF : 0 < F.infMag) (hx : ZeroOrNaN x) (hy : ZeroOrNaN y) : ZeroOrNaN (x.add y) := by
  rcases hx with hx | hx
  · rcases hy with hy | hy
    · exact Or.inl (IsZero.add hF hx hy)
    · exact Or.inr (nan_add (Or.inr hy))
  · exact Or.inr (nan_add (Or.inl hx))

theorem zon_negate {x : Flt F} (hx : ZeroOrNaN x) : ZeroOrNaN (negate x) := hx

theorem zon_abs {x : Flt F} (hx : ZeroOrNaN x) : ZeroOrNaN x.abs := hx

theorem zon_sub {x y : Flt F} (hF : 0 < F.infMag) (hx : ZeroOrNaN x) (hy : ZeroOrNaN y) : ZeroOrNaN (x.sub y) :=
  zon_add hF hx (zon_negate hy)

theorem zon_sqrt {x : Flt F} (hF : 0 < F.infMag) (hx : ZeroOrNaN x) : ZeroOrNaN x.sqrt := by
  rcases hx with hx | hx
  · exact Or.inl (IsZero.sqrt hF hx)
  · exact Or.inr (by unfold Flt.sqrt; rw [hx]; simp [isNaN_nan])

theorem zon_div {x y : Flt F} (hF : 0 < F.infMag) (hx : ZeroOrNaN x) (hy : ZeroOrNaN y) : (x.div y).isNaN = true := by
  unfold Flt.div
  by_cases h : x.isNaN = true ∨ y.isNaN = true
  · rw [if_pos h]; exact isNaN_nan
  · rw [if_neg h]
    have hx0 : x.mag = 0 := hx.resolve_right fun e => h (Or.inl e)
    have hy0 : y.mag = 0 := hy.resolve_right fun e => h (Or.inr e)
    obtain ⟨_, x2⟩ := finite_cases (finite_zero hF hx0)
    obtain ⟨_, y2⟩ := finite_cases (finite_zero hF hy0)
    simp [x2, y2, hx0, hy0, isNaN_nan]

/-- Anything minus itself. -/
theorem sub_self_zon {x : Flt F} : ZeroOrNaN (x.sub x) := by
  cases hx : x.isNaN with
  | true => exact Or.inr (nan_add (Or.inl hx))
  | false =>
    cases hi : x.isInf with
    | true =>
      refine Or.inr ?_
      have h1 : (negate x).isNaN = false := hx
      have h2 : (negate x).isInf = true := hi
      unfold Flt.sub Flt.add
      rw [if_neg (by rw [hx, h1]; simp), if_pos hi, if_pos ⟨h2, by simp [negate]⟩]
      exact isNaN_nan
    | false => exact Or.inl (sub_cancel (finite_iff.2 ⟨hx, hi⟩) (finite_iff.2 ⟨hx, hi⟩) rfl)

theorem mul_swap (x y : Flt F) : x.mul y = y.mul x := by
  unfold Flt.mul
  have hb : (x.neg != y.neg) = (y.neg != x.neg) := by cases x.neg <;> cases y.neg <;> rfl
  rw [hb, Int.mul_comm]
  by_cases h : x.isNaN = true ∨ y.isNaN = true
  · rw [if_pos h, if_pos (Or.comm.1 h)]
  · rw [if_neg h, if_neg (fun e => h (Or.comm.1 e))]
    by_cases hi : x.isInf = true <;> by_cases hj : y.isInf = true
    · have : x.mag = y.mag := by
        unfold isInf at hi hj; simp at hi hj; omega
      rw [if_pos hi, if_pos hj, this]
    · rw [if_pos hi, if_neg hj, if_pos hi]
    · rw [if_neg hi, if_pos hj, if_pos hj]
    · rw [if_neg hi, if_neg hj, if_neg hj, if_neg hi]

theorem nan_lt {x y : Flt F} (h : x.isNaN = true) : lt x y = false := by
  unfold Flt.lt
  rw [h]
  rfl

/-- `u * -v` and `v * -u`, with the negations computed as differences the other way round. -/
theorem mul_opposite {F : FloatFormat} (hF : 1 ≤ F.mantBits) {u v u' v' : Flt F} (hu : (u.mul u).isFinite = true)
    (hv : (v.mul v).isFinite = true) (u1 : u'.mag = u.mag) (v1 : v'.mag = v.mag) (u2 : u'.sunits = -u.sunits)
    (v2 : v'.sunits = -v.sunits) : ((u.mul v').sub (v.mul u')).mag = 0 := by
  have huf := (mul_args hu).1
  have hvf := (mul_args hv).1
  have hu' : u'.isFinite = true := by unfold isFinite at huf ⊢; rw [u1]; exact huf
  have hv' : v'.isFinite = true := by unfold isFinite at hvf ⊢; rw [v1]; exact hvf
  have key : ∀ {x y y' : Flt F}, x.isFinite = true → y.isFinite = true → y'.isFinite = true → y'.mag = y.mag →
      (x.mul y).isFinite = true → (x.mul y').isFinite = true := by
    intro x y y' hx hy hy' e h
    rw [mul_eq hx hy] at h
    rw [mul_eq hx hy']
    unfold isFinite at h ⊢
    simp only [ofUnits_magnitude, decide_eq_true_eq, Int.natAbs_mul, natAbs_sunits, e] at h ⊢
    exact h
  refine sub_cancel (key huf hvf hv' v1 (mul_finite hF hu hv)) (key hvf huf hu' u1 (mul_finite hF hv hu)) ?_
  rw [mul_eq huf hv', mul_eq hvf hu', u2, v2, show v.sunits * -u.sunits = u.sunits * -v.sunits by
    rw [Int.mul_neg, Int.mul_neg, Int.mul_comm]]
  exact ofUnits_sign _ _ _ _

end Flt

namespace Ransac

open Flt

/-- 0 < infinity, with one bit of mantissa at least. -/
theorem f64_room : 0 < FloatFormat.f64.infMag ∧ 1 ≤ FloatFormat.f64.mantBits := by decide

section
variable {F : FloatFormat}

theorem arith_div (x y : Flt F) : Arith.div x y = x.div y := rfl

theorem norm_def (u : P3 (Flt F)) :
    Vec3.norm u = ((zero F).add (((u.x.mul u.x).add (u.y.mul u.y)).add (u.z.mul u.z))).sqrt := by
  unfold Vec3.norm Vec3.magnitudeSquared Vec3.dot
  rfl

theorem distancePointLine_def (p : P3 (Flt F)) (line : Line (Flt F)) :
    distancePointLine p line = (Vec3.norm (Vec3.cross (Vec3.sub line.second line.first) (Vec3.sub line.first p))).div
      (Vec3.norm (Vec3.sub line.second line.first)) := by
  unfold distancePointLine
  exact arith_div _ _

theorem distancePointPlane_def (x : P3 (Flt F)) (plane : Plane (Flt F)) :
    distancePointPlane x plane =
      (((((plane.a.mul x.x).add (plane.b.mul x.y)).add (plane.c.mul x.z)).add plane.d).abs).div
      (((plane.a.mul plane.a).add (plane.b.mul plane.b)).add (plane.c.mul plane.c)).sqrt := by
  unfold distancePointPlane
  exact arith_div _ _

variable (hF : 0 < F.infMag)
include hF

/-- The parts of a vector whose computed length is finite. -/
theorem norm_parts {u : P3 (Flt F)} (h : (Vec3.norm u).isFinite = true) :
    (u.x.mul u.x).isFinite = true ∧ (u.y.mul u.y).isFinite = true ∧ (u.z.mul u.z).isFinite = true := by
  rw [norm_def] at h
  obtain ⟨_, h1⟩ := add_args (sqrt_args hF h)
  obtain ⟨h2, h3⟩ := add_args h1
  obtain ⟨h4, h5⟩ := add_args h2
  exact ⟨h4, h5, h3⟩

theorem norm_zero {u : P3 (Flt F)} (hx : IsZero u.x) (hy : IsZero u.y) (hz : IsZero u.z) : IsZero (Vec3.norm u) := by
  rw [norm_def]
  exact IsZero.sqrt hF (IsZero.add hF rfl (IsZero.add hF (IsZero.add hF (IsZero.mul hF (hx.finite hF) hx)
    (IsZero.mul hF (hy.finite hF) hy)) (IsZero.mul hF (hz.finite hF) hz)))

/-- The distance of the first point of a line. -/
theorem distance_first {line : Line (Flt F)} (hfin : (Vec3.norm (Vec3.sub line.second line.first)).isFinite = true)
    (hpos : (Vec3.norm (Vec3.sub line.second line.first)).mag ≠ 0) : IsZero (distancePointLine line.first line) := by
  obtain ⟨ux, uy, uz⟩ := norm_parts hF hfin
  have ux := (mul_args ux).1
  have uy := (mul_args uy).1
  have uz := (mul_args uz).1
  have fx := (sub_args ux).2
  have fy := (sub_args uy).2
  have fz := (sub_args uz).2
  have zx : IsZero (line.first.x.sub line.first.x) := sub_cancel fx fx rfl
  have zy : IsZero (line.first.y.sub line.first.y) := sub_cancel fy fy rfl
  have zz : IsZero (line.first.z.sub line.first.z) := sub_cancel fz fz rfl
  rw [distancePointLine_def]
  refine IsZero.div hF (norm_zero hF ?_ ?_ ?_) (finite_cases hfin).1 hpos
  · exact IsZero.sub hF (IsZero.mul hF uy zz) (IsZero.mul hF uz zy)
  · exact IsZero.sub hF (IsZero.mul hF uz zx) (IsZero.mul hF ux zz)
  · exact IsZero.sub hF (IsZero.mul hF ux zy) (IsZero.mul hF uy zx)

/-- The distance of the second point of a line. -/
theorem distance_second (hM : 1 ≤ F.mantBits) {line : Line (Flt F)}
    (hfin : (Vec3.norm (Vec3.sub line.second line.first)).isFinite = true)
    (hpos : (Vec3.norm (Vec3.sub line.second line.first)).mag ≠ 0) : IsZero (distancePointLine line.second line) := by
  obtain ⟨ux, uy, uz⟩ := norm_parts hF hfin
  obtain ⟨sx, fx⟩ := sub_args (mul_args ux).1
  obtain ⟨sy, fy⟩ := sub_args (mul_args uy).1
  obtain ⟨sz, fz⟩ := sub_args (mul_args uz).1
  rw [distancePointLine_def]
  refine IsZero.div hF (norm_zero hF ?_ ?_ ?_) (finite_cases hfin).1 hpos
  · exact mul_opposite hM uy uz (sub_swap_mag fy sy) (sub_swap_mag fz sz) (sub_swap fy sy) (sub_swap fz sz)
  · exact mul_opposite hM uz ux (sub_swap_mag fz sz) (sub_swap_mag fx sx) (sub_swap fz sz) (sub_swap fx sx)
  · exact mul_opposite hM ux uy (sub_swap_mag fx sx) (sub_swap_mag fy sy) (sub_swap fx sx) (sub_swap fy sy)

/-- The distance of the first point of a plane. -/
theorem distance_corner {p : P3 (Flt F)} {plane : Plane (Flt F)}
    (hd : plane.d = (((plane.a.mul p.x).add (plane.b.mul p.y)).add (plane.c.mul p.z)).negate) (hf : plane.d.isFinite = true)
    (he : (((plane.a.mul plane.a).add (plane.b.mul plane.b)).add (plane.c.mul plane.c)).sqrt.isNaN = false)
    (h0 : (((plane.a.mul plane.a).add (plane.b.mul plane.b)).add (plane.c.mul plane.c)).sqrt.mag ≠ 0) :
    IsZero (distancePointPlane p plane) := by
  rw [distancePointPlane_def]
  refine IsZero.div hF ?_ he h0
  rw [hd] at hf ⊢
  exact sub_cancel hf hf rfl

/-- All parts are zeros or NaNs. -/
def Nowhere {F : FloatFormat} (u : P3 (Flt F)) : Prop := ZeroOrNaN u.x ∧ ZeroOrNaN u.y ∧ ZeroOrNaN u.z

theorem zon_mul_right {x y : Flt F} (hy : ZeroOrNaN y) : ZeroOrNaN (x.mul y) := by
  rw [mul_swap]
  exact zon_mul hF hy

omit hF in
theorem nowhere_sub (p : P3 (Flt F)) : Nowhere (Vec3.sub p p) := ⟨sub_self_zon, sub_self_zon, sub_self_zon⟩

theorem nowhere_cross_left {u v : P3 (Flt F)} (h : Nowhere u) : Nowhere (Vec3.cross u v) := by
  obtain ⟨hx, hy, hz⟩ := h
  exact ⟨zon_sub hF (zon_mul hF hy) (zon_mul hF hz), zon_sub hF (zon_mul hF hz) (zon_mul hF hx),
    zon_sub hF (zon_mul hF hx) (zon_mul hF hy)⟩

theorem nowhere_cross_right {u v : P3 (Flt F)} (h : Nowhere v) : Nowhere (Vec3.cross u v) := by
  obtain ⟨hx, hy, hz⟩ := h
  exact ⟨zon_sub hF (zon_mul_right hF hz) (zon_mul_right hF hy), zon_sub hF (zon_mul_right hF hx) (zon_mul_right hF hz),
    zon_sub hF (zon_mul_right hF hy) (zon_mul_right hF hx)⟩

omit hF in
theorem nowhere_cross_self (u : P3 (Flt F)) : Nowhere (Vec3.cross u u) := by
  refine ⟨?_, ?_, ?_⟩
  · show ZeroOrNaN ((u.y.mul u.z).sub (u.z.mul u.y))
    rw [mul_swap u.z]; exact sub_self_zon
  · show ZeroOrNaN ((u.z.mul u.x).sub (u.x.mul u.z))
    rw [mul_swap u.x]; exact sub_self_zon
  · show ZeroOrNaN ((u.x.mul u.y).sub (u.y.mul u.x))
    rw [mul_swap u.y]; exact sub_self_zon

theorem nowhere_norm {u : P3 (Flt F)} (h : Nowhere u) : ZeroOrNaN (Vec3.norm u) := by
  obtain ⟨hx, hy, hz⟩ := h
  rw [norm_def]
  exact zon_sqrt hF (zon_add hF (Or.inl rfl) (zon_add hF (zon_add hF (zon_mul hF hx) (zon_mul hF hy)) (zon_mul hF hz)))

/-- No point has a distance from a line through one point only. -/
theorem distance_point_line_nan {line : Line (Flt F)} (h : line.first = line.second) (p : P3 (Flt F)) :
    (distancePointLine p line).isNaN = true := by
  have hu : Nowhere (Vec3.sub line.second line.first) := by rw [h]; exact nowhere_sub _
  rw [distancePointLine_def]
  exact zon_div hF (nowhere_norm hF (nowhere_cross_left hF hu)) (nowhere_norm hF hu)

/-- No point has a distance from a plane without a normal. -/
theorem distance_point_plane_nan {p q r : P3 (Flt F)} (h : Nowhere (Vec3.cross (Vec3.sub q p) (Vec3.sub r p))) (k : Nat)
    (x : P3 (Flt F)) : (distancePointPlane x { planeThrough p q r with ranking := k }).isNaN = true := by
  obtain ⟨hx, hy, hz⟩ := h
  rw [distancePointPlane_def]
  refine zon_div hF (zon_abs (zon_add hF (zon_add hF (zon_add hF (zon_mul hF hx) (zon_mul hF hy)) (zon_mul hF hz)) ?_))
    (zon_sqrt hF (zon_add hF (zon_add hF (zon_mul hF hx) (zon_mul hF hy)) (zon_mul hF hz)))
  exact zon_negate (zon_add hF (zon_add hF (zon_mul hF hx) (zon_mul hF hy)) (zon_mul hF hz))

end

end Ransac

end Pasture
