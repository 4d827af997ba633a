import Verif.Spec.Geometry
import Verif.Lemmas.FloatWhole
import Verif.Lemmas.HullError
import Verif.Lemmas.HullExtreme

/-! # Arithmetic in which the comparisons of the algorithm come out right -/

namespace Pasture.Hull

open Spec

/-- Points that are not on a line. -/
theorem cross_ne_zero {R : Nat → P3 ℝ} {m : Nat} (h : vol R 0 1 2 m ≠ 0) :
    ((R 1).y - (R 0).y) * ((R 2).z - (R 0).z) - ((R 1).z - (R 0).z) * ((R 2).y - (R 0).y) ≠ 0 ∨
    ((R 1).z - (R 0).z) * ((R 2).x - (R 0).x) - ((R 1).x - (R 0).x) * ((R 2).z - (R 0).z) ≠ 0 ∨
    ((R 1).x - (R 0).x) * ((R 2).y - (R 0).y) - ((R 1).y - (R 0).y) * ((R 2).x - (R 0).x) ≠ 0 := by
  by_contra hc
  simp only [not_or, not_not] at hc
  obtain ⟨h1, h2, h3⟩ := hc
  apply h
  have : vol R 0 1 2 m = (((R 1).y - (R 0).y) * ((R 2).z - (R 0).z) - ((R 1).z - (R 0).z) * ((R 2).y - (R 0).y)) * ((R m).x - (R 0).x) +
      (((R 1).z - (R 0).z) * ((R 2).x - (R 0).x) - ((R 1).x - (R 0).x) * ((R 2).z - (R 0).z)) * ((R m).y - (R 0).y) +
      (((R 1).x - (R 0).x) * ((R 2).y - (R 0).y) - ((R 1).y - (R 0).y) * ((R 2).x - (R 0).x)) * ((R m).z - (R 0).z) := by
    unfold vol volume
    ring
  rw [this, h1, h2, h3]
  ring

/-! ## Whole numbers -/

/-- A point with small whole coordinates. -/
structure WholePoint (p : P3 F64) (z : P3 Int) : Prop where
  x : Whole p.x z.x
  y : Whole p.y z.y
  z : Whole p.z z.z

/-- All coordinates are at most `b` in absolute value. -/
structure Below (b : Int) (z : P3 Int) : Prop where
  x : |z.x| ≤ b
  y : |z.y| ≤ b
  z : |z.z| ≤ b

def subZ (a b : P3 Int) : P3 Int := ⟨a.x - b.x, a.y - b.y, a.z - b.z⟩

def crossZ (a b : P3 Int) : P3 Int := ⟨a.y * b.z - a.z * b.y, a.z * b.x - a.x * b.z, a.x * b.y - a.y * b.x⟩

def dotZ (a b : P3 Int) : Int := a.x * b.x + a.y * b.y + a.z * b.z

theorem abs_sub_le' {a b c d : Int} (ha : |a| ≤ c) (hb : |b| ≤ d) : |a - b| ≤ c + d := (abs_sub a b).trans (add_le_add ha hb)

theorem abs_mul_le' {a b c d : Int} (ha : |a| ≤ c) (hb : |b| ≤ d) : |a * b| ≤ c * d := by
  rw [abs_mul]
  exact mul_le_mul ha hb (abs_nonneg b) ((abs_nonneg a).trans ha)

theorem abs_add_le' {a b c d : Int} (ha : |a| ≤ c) (hb : |b| ≤ d) : |a + b| ≤ c + d := (abs_add_le a b).trans (add_le_add ha hb)

theorem Below.sub {b c : Int} {u v : P3 Int} (hu : Below b u) (hv : Below c v) : Below (b + c) (subZ u v) :=
  ⟨abs_sub_le' hu.x hv.x, abs_sub_le' hu.y hv.y, abs_sub_le' hu.z hv.z⟩

theorem Below.cross {b c : Int} {u v : P3 Int} (hu : Below b u) (hv : Below c v) : Below (b * c + b * c) (crossZ u v) :=
  ⟨abs_sub_le' (abs_mul_le' hu.y hv.z) (abs_mul_le' hu.z hv.y), abs_sub_le' (abs_mul_le' hu.z hv.x) (abs_mul_le' hu.x hv.z),
    abs_sub_le' (abs_mul_le' hu.x hv.y) (abs_mul_le' hu.y hv.x)⟩

section
variable {p q : P3 F64} {u v : P3 Int} {b c : Int}

theorem WholePoint.sub (hp : WholePoint p u) (hq : WholePoint q v) (hu : Below b u) (hv : Below c v) (h : b + c ≤ 2 ^ 53) :
    WholePoint (Vec3.sub p q) (subZ u v) :=
  have hs := hu.sub hv
  ⟨hp.x.sub hq.x (hs.x.trans h), hp.y.sub hq.y (hs.y.trans h), hp.z.sub hq.z (hs.z.trans h)⟩

theorem WholePoint.cross (hp : WholePoint p u) (hq : WholePoint q v) (hu : Below b u) (hv : Below c v) (h : b * c + b * c ≤ 2 ^ 53) :
    WholePoint (Vec3.cross p q) (crossZ u v) := by
  have hs := hu.cross hv
  have h0 : 0 ≤ b * c := mul_nonneg ((abs_nonneg _).trans hu.x) ((abs_nonneg _).trans hv.x)
  have m : ∀ {x y : F64} {i j : Int}, Whole x i → Whole y j → |i| ≤ b → |j| ≤ c → Whole (Flt.mul x y) (i * j) :=
    fun hx hy hi hj => hx.mul hy ((abs_mul_le' hi hj).trans (by linarith))
  exact ⟨(m hp.y hq.z hu.y hv.z).sub (m hp.z hq.y hu.z hv.y) (hs.x.trans h), (m hp.z hq.x hu.z hv.x).sub (m hp.x hq.z hu.x hv.z) (hs.y.trans h),
    (m hp.x hq.y hu.x hv.y).sub (m hp.y hq.x hu.y hv.x) (hs.z.trans h)⟩

theorem WholePoint.dot (hp : WholePoint p u) (hq : WholePoint q v) (hu : Below b u) (hv : Below c v) (h : b * c + b * c + b * c ≤ 2 ^ 53) :
    Whole (Vec3.dot p q) (dotZ u v) := by
  have h0 : 0 ≤ b * c := mul_nonneg ((abs_nonneg _).trans hu.x) ((abs_nonneg _).trans hv.x)
  have m : ∀ {x y : F64} {i j : Int}, Whole x i → Whole y j → |i| ≤ b → |j| ≤ c → Whole (Flt.mul x y) (i * j) :=
    fun hx hy hi hj => hx.mul hy ((abs_mul_le' hi hj).trans (by linarith))
  have l1 := abs_add_le' (abs_mul_le' hu.x hv.x) (abs_mul_le' hu.y hv.y)
  have l2 := abs_add_le' l1 (abs_mul_le' hu.z hv.z)
  exact ((m hp.x hq.x hu.x hv.x).add (m hp.y hq.y hu.y hv.y) (l1.trans (by linarith))).add (m hp.z hq.z hu.z hv.z) (l2.trans h)

theorem WholePoint.neg (hp : WholePoint p u) : WholePoint (Vec3.neg p) ⟨-u.x, -u.y, -u.z⟩ :=
  ⟨hp.x.negate, hp.y.negate, hp.z.negate⟩

end

/-- A point with whole coordinates as a point of space. -/
def realZ (z : P3 Int) : P3 ℝ := ⟨z.x, z.y, z.z⟩

section
variable {Q : Nat → P3 F64} {Z : Nat → P3 Int} {n : Nat} (hQ : ∀ i < n, WholePoint (Q i) (Z i)) (hZ : ∀ i < n, Below 1000 (Z i))
include hQ hZ

/-- The side tests are exact. -/
theorem whole_rep {a b c : Nat} (ha : a < n) (v : P3 F64) (w : P3 Int) (hv : WholePoint v w) (hw : Below 8000000 w)
    (hval : ∀ p, (dotZ (subZ (Z a) (Z p)) w : ℝ) = -vol (fun i => realZ (Z i)) a b c p) :
    Rep Q (fun i => realZ (Z i)) n ⟨a, b, c, v⟩ := by
  intro p hp _ _ _
  have hs := (hQ a ha).sub (hQ p hp) (hZ a ha) (hZ p hp) (by norm_num)
  have hd := hs.dot hv ((hZ a ha).sub (hZ p hp)) hw (by norm_num)
  have hval := hval p
  show (Flt.lt (Vec3.dot (Vec3.sub (Q a) (Q p)) v) (Flt.zero .f64) = true ↔ _) ∧ (Flt.feq _ (Flt.zero .f64) = true ↔ _)
  rw [Flt.lt_iff usable_f64 _ _ hd.finite whole_zero.finite, feq_iff hd.finite whole_zero.finite, hd.value_eq, whole_zero.value_eq]
  have c1 : ((dotZ (subZ (Z a) (Z p)) w : Int) : ℚ) < ((0 : Int) : ℚ) ↔ (dotZ (subZ (Z a) (Z p)) w : ℝ) < 0 := by
    rw [Int.cast_lt, ← Int.cast_lt (R := ℝ), Int.cast_zero]
  have c2 : ((dotZ (subZ (Z a) (Z p)) w : Int) : ℚ) = ((0 : Int) : ℚ) ↔ (dotZ (subZ (Z a) (Z p)) w : ℝ) = 0 := by
    rw [Int.cast_inj, ← Int.cast_inj (α := ℝ), Int.cast_zero]
  rw [c1, c2, hval]
  exact ⟨neg_lt_zero, neg_eq_zero⟩

theorem whole_normal {a b c : Nat} (ha : a < n) (hb : b < n) (hc : c < n) :
    WholePoint (calcNormal (Q a) (Q b) (Q c)) (crossZ (subZ (Z b) (Z a)) (subZ (Z c) (Z a))) ∧
    Below 8000000 (crossZ (subZ (Z b) (Z a)) (subZ (Z c) (Z a))) := by
  have s1 := (hQ b hb).sub (hQ a ha) (hZ b hb) (hZ a ha) (by norm_num)
  have s2 := (hQ c hc).sub (hQ a ha) (hZ c hc) (hZ a ha) (by norm_num)
  have b1 := (hZ b hb).sub (hZ a ha)
  have b2 := (hZ c hc).sub (hZ a ha)
  refine ⟨s1.cross s2 b1 b2 (by norm_num), ?_⟩
  have := b1.cross b2
  norm_num at this
  exact this

/-- The length of a vector. -/
theorem whole_norm {a b : Nat} (ha : a < n) (hb : b < n) (hne : Z b ≠ Z a) :
    let d := subZ (Z b) (Z a)
    Whole (Vec3.magnitudeSquared (Vec3.sub (Q b) (Q a))) (dotZ d d) ∧ 1 ≤ dotZ d d ∧ dotZ d d ≤ 12000000 ∧
    (Vec3.norm (Vec3.sub (Q b) (Q a))).isFinite = true ∧
    |(value (Vec3.norm (Vec3.sub (Q b) (Q a))) : ℝ) - √(dotZ d d : ℝ)| ≤ √(dotZ d d : ℝ) / 2 ^ 53 + 1 / 2 ^ 99 := by
  intro d
  have s1 := (hQ b hb).sub (hQ a ha) (hZ b hb) (hZ a ha) (by norm_num)
  have b1 := (hZ b hb).sub (hZ a ha)
  have b1 : Below 2000 d := by norm_num at b1; exact b1
  have hd := s1.dot s1 b1 b1 (by norm_num)
  have hle : dotZ d d ≤ 12000000 := by
    have := abs_le.1 b1.x
    have := abs_le.1 b1.y
    have := abs_le.1 b1.z
    unfold dotZ
    nlinarith
  have hge : 1 ≤ dotZ d d := by
    have : d.x ≠ 0 ∨ d.y ≠ 0 ∨ d.z ≠ 0 := by
      by_contra hc
      simp only [not_or, not_not] at hc
      obtain ⟨h1, h2, h3⟩ := hc
      simp only [d, subZ, sub_eq_zero] at h1 h2 h3
      apply hne
      cases hu : Z a
      cases hv : Z b
      rw [hu, hv] at h1 h2 h3
      simp at h1 h2 h3
      rw [h1, h2, h3]
    unfold dotZ
    rcases this with h | h | h <;> nlinarith [mul_self_pos.2 h, mul_self_nonneg d.x, mul_self_nonneg d.y, mul_self_nonneg d.z]
  have hm : Whole (Vec3.magnitudeSquared (Vec3.sub (Q b) (Q a))) (dotZ d d) := by
    have := whole_zero.add hd (by rw [abs_le]; constructor <;> norm_num <;> linarith)
    rw [zero_add] at this
    exact this
  obtain ⟨f, e⟩ := sqrt_near hm hge (by linarith)
  exact ⟨hm, hge, hle, f, e⟩

/-- The test whether three points are on a line comes out right although it rounds. -/
theorem whole_projection (h0 : 0 < n) (h1 : 1 < n) (h2 : 2 < n) {m : Nat} (hvol : vol (fun i => realZ (Z i)) 0 1 2 m ≠ 0) :
    Flt.feq (Vec3.magnitudeSquared (Vec3.sub (Q 1) (Q 0))) (Flt.zero .f64) = false ∧
    Flt.feq (Flt.abs (Vec3.dot (Vec3.sub (Q 2) (Q 0)) (Vec3.normalize (Vec3.sub (Q 1) (Q 0))))) (Vec3.norm (Vec3.sub (Q 2) (Q 0))) = false := by
  have hcr := cross_ne_zero hvol
  have ne1 : Z 1 ≠ Z 0 := by
    intro e
    simp [e] at hcr
  have ne2 : Z 2 ≠ Z 0 := by
    intro e
    simp [e] at hcr
  obtain ⟨a1, a2, a3, a4, a5⟩ := whole_norm hQ hZ h0 h1 ne1
  obtain ⟨c1, c2, c3, c4, c5⟩ := whole_norm hQ hZ h0 h2 ne2
  have sa := (hQ 1 h1).sub (hQ 0 h0) (hZ 1 h1) (hZ 0 h0) (by norm_num)
  have sc := (hQ 2 h2).sub (hQ 0 h0) (hZ 2 h2) (hZ 0 h0) (by norm_num)
  have ba := (hZ 1 h1).sub (hZ 0 h0)
  have bc := (hZ 2 h2).sub (hZ 0 h0)
  norm_num at ba bc
  obtain ⟨da, hda⟩ : ∃ d, d = subZ (Z 1) (Z 0) := ⟨_, rfl⟩
  obtain ⟨dc, hdc⟩ : ∃ d, d = subZ (Z 2) (Z 0) := ⟨_, rfl⟩
  rw [← hda] at a1 a2 a3 a5 sa ba
  rw [← hdc] at c1 c2 c3 c5 sc bc
  have hcross : 1 ≤ (da.y * dc.z - da.z * dc.y) ^ 2 + (da.z * dc.x - da.x * dc.z) ^ 2 + (da.x * dc.y - da.y * dc.x) ^ 2 := by
    have : da.y * dc.z - da.z * dc.y ≠ 0 ∨ da.z * dc.x - da.x * dc.z ≠ 0 ∨ da.x * dc.y - da.y * dc.x ≠ 0 := by
      rw [hda, hdc]
      simp only [realZ] at hcr
      simp only [subZ]
      exact_mod_cast hcr
    generalize da.y * dc.z - da.z * dc.y = x at *
    generalize da.z * dc.x - da.x * dc.z = y at *
    generalize da.x * dc.y - da.y * dc.x = z at *
    rcases this with h | h | h
    · have := Int.one_le_abs h; nlinarith [sq_abs x, sq_nonneg y, sq_nonneg z]
    · have := Int.one_le_abs h; nlinarith [sq_abs y, sq_nonneg x, sq_nonneg z]
    · have := Int.one_le_abs h; nlinarith [sq_abs z, sq_nonneg y, sq_nonneg x]
  refine ⟨?_, ?_⟩
  · rw [Bool.eq_false_iff, ne_eq, feq_iff a1.finite whole_zero.finite, a1.value_eq, whole_zero.value_eq]
    intro hc
    have : dotZ da da = 0 := by exact_mod_cast hc
    omega
  -- lengths
  obtain ⟨ln, hln⟩ : ∃ l, l = √(dotZ da da : ℝ) := ⟨_, rfl⟩
  obtain ⟨lk, hlk⟩ : ∃ l, l = √(dotZ dc dc : ℝ) := ⟨_, rfl⟩
  rw [← hln] at a5
  rw [← hlk] at c5
  have a2' : (1 : ℝ) ≤ (dotZ da da : ℝ) := by exact_mod_cast a2
  have a3' : (dotZ da da : ℝ) ≤ 12000000 := by exact_mod_cast a3
  have c2' : (1 : ℝ) ≤ (dotZ dc dc : ℝ) := by exact_mod_cast c2
  have c3' : (dotZ dc dc : ℝ) ≤ 12000000 := by exact_mod_cast c3
  have ln2 : ln ^ 2 = (dotZ da da : ℝ) := by rw [hln]; exact Real.sq_sqrt (by linarith)
  have lk2 : lk ^ 2 = (dotZ dc dc : ℝ) := by rw [hlk]; exact Real.sq_sqrt (by linarith)
  have ln1 : 1 ≤ ln := by rw [hln]; exact Real.one_le_sqrt.2 a2'
  have lk1 : 1 ≤ lk := by rw [hlk]; exact Real.one_le_sqrt.2 c2'
  have lnu : ln ≤ 4000 := by nlinarith
  obtain ⟨r, hr⟩ : ∃ r, r = Vec3.norm (Vec3.sub (Q 1) (Q 0)) := ⟨_, rfl⟩
  rw [← hr] at a4 a5
  have hrv : (0.9 : ℝ) ≤ (value r : ℝ) := by
    have := (abs_le.1 a5).1
    norm_num at this ⊢
    linarith
  have hrq : (0.9 : ℚ) ≤ value r := by
    have e : ((0.9 : ℚ) : ℝ) = 0.9 := by norm_num
    rw [← e] at hrv
    exact_mod_cast hrv
  have hr0 : value r ≠ 0 := by
    intro hc
    rw [hc] at hrq
    norm_num at hrq
  -- the normalized vector
  have comp : ∀ (x : F64) (z : Int), Whole x z → |z| ≤ 2000 → (Flt.div x r).isFinite = true ∧
      |(value (Flt.div x r) : ℝ) - z / ln| ≤ 3 * |(z : ℝ) / ln| / 2 ^ 53 + 1 / 2 ^ 99 ∧ |(value (Flt.div x r) : ℝ)| ≤ 3000 := by
    intro x z hx hz
    have hz' : |(z : ℚ)| ≤ 2000 := by exact_mod_cast hz
    have hz2 : |(z : ℝ)| ≤ 2000 := by exact_mod_cast hz
    have hq : |value x / value r| ≤ 2 ^ 53 := by
      rw [hx.value_eq, abs_div, abs_of_nonneg (a := value r) (by linarith), div_le_iff₀ (by linarith)]
      norm_num
      norm_num at hrq
      linarith
    obtain ⟨f, e⟩ := rounds_near (Flt.div_rounds usable_f64 x r hx.finite a4 hr0) hq
    rw [hx.value_eq] at e
    push_cast at e
    have e' := quotient_error (n := ln) (r := (value r : ℝ)) (a := (z : ℝ)) (p := (value (Flt.div x r) : ℝ)) ln1 a5
      (e.trans (by norm_num))
    refine ⟨f, e', ?_⟩
    have hzn : |(z : ℝ) / ln| ≤ 2000 := by
      rw [abs_div, abs_of_pos (a := ln) (by linarith), div_le_iff₀ (by linarith)]
      nlinarith
    have := abs_add_le ((value (Flt.div x r) : ℝ) - z / ln) (z / ln)
    rw [sub_add_cancel] at this
    norm_num at *
    linarith
  -- the products
  have prod : ∀ (y x : F64) (w z : Int), Whole y w → |w| ≤ 2000 → Whole x z → |z| ≤ 2000 →
      (Flt.mul y (Flt.div x r)).isFinite = true ∧
      |(value (Flt.mul y (Flt.div x r)) : ℝ) - w * (z / ln)| ≤ 5 * (|(w : ℝ)| * |(z : ℝ) / ln|) / 2 ^ 53 + 3000 / 2 ^ 99 ∧
      |(value (Flt.mul y (Flt.div x r)) : ℝ)| ≤ 7000000 := by
    intro y x w z hy hw hx hz
    obtain ⟨f, e, g⟩ := comp x z hx hz
    have hw2 : |(w : ℝ)| ≤ 2000 := by exact_mod_cast hw
    have hz2 : |(z : ℝ)| ≤ 2000 := by exact_mod_cast hz
    have hbig : |(w : ℝ) * (value (Flt.div x r) : ℝ)| ≤ 2000 * 3000 := by
      rw [abs_mul]
      exact mul_le_mul hw2 g (abs_nonneg _) (by norm_num)
    have hq : |value y * value (Flt.div x r)| ≤ 2 ^ 53 := by
      rw [hy.value_eq]
      have : |(w : ℝ) * (value (Flt.div x r) : ℝ)| ≤ 2 ^ 53 := hbig.trans (by norm_num)
      exact_mod_cast this
    obtain ⟨f', e'⟩ := rounds_near (Flt.mul_rounds usable_f64 y _ hy.finite f) hq
    rw [hy.value_eq] at e'
    push_cast at e'
    refine ⟨f', product_error hw2 e (e'.trans (by norm_num)), ?_⟩
    have := abs_add_le ((value (Flt.mul y (Flt.div x r)) : ℝ) - w * (value (Flt.div x r) : ℝ)) (w * (value (Flt.div x r) : ℝ))
    rw [sub_add_cancel] at this
    norm_num at *
    linarith
  obtain ⟨fx, ex, gx⟩ := prod _ _ _ _ sc.x bc.x sa.x ba.x
  obtain ⟨fy, ey, gy⟩ := prod _ _ _ _ sc.y bc.y sa.y ba.y
  obtain ⟨fz, ez, gz⟩ := prod _ _ _ _ sc.z bc.z sa.z ba.z
  have hdot : Vec3.dot (Vec3.sub (Q 2) (Q 0)) (Vec3.normalize (Vec3.sub (Q 1) (Q 0))) =
      Flt.add (Flt.add (Flt.mul (Vec3.sub (Q 2) (Q 0)).x (Flt.div (Vec3.sub (Q 1) (Q 0)).x r))
        (Flt.mul (Vec3.sub (Q 2) (Q 0)).y (Flt.div (Vec3.sub (Q 1) (Q 0)).y r)))
        (Flt.mul (Vec3.sub (Q 2) (Q 0)).z (Flt.div (Vec3.sub (Q 1) (Q 0)).z r)) := by
    rw [hr]; rfl
  rw [hdot]
  generalize Flt.mul (Vec3.sub (Q 2) (Q 0)).x (Flt.div (Vec3.sub (Q 1) (Q 0)).x r) = mx at *
  generalize Flt.mul (Vec3.sub (Q 2) (Q 0)).y (Flt.div (Vec3.sub (Q 1) (Q 0)).y r) = my at *
  generalize Flt.mul (Vec3.sub (Q 2) (Q 0)).z (Flt.div (Vec3.sub (Q 1) (Q 0)).z r) = mz at *
  generalize Vec3.norm (Vec3.sub (Q 2) (Q 0)) = nc at *
  have l1 : |(value mx : ℝ) + value my| ≤ 14000000 := (abs_add_le _ _).trans (by linarith)
  obtain ⟨f1, e1⟩ := rounds_near (Flt.add_rounds usable_f64 mx my fx fy) (by
    have : |(value mx : ℝ) + value my| ≤ 2 ^ 53 := l1.trans (by norm_num)
    exact_mod_cast this)
  push_cast at e1
  generalize Flt.add mx my = s1 at *
  have l2 : |(value s1 : ℝ)| ≤ 15000000 := by
    have := abs_add_le ((value s1 : ℝ) - (value mx + value my)) (value mx + value my)
    rw [sub_add_cancel] at this
    norm_num at *
    linarith
  obtain ⟨f2, e2⟩ := rounds_near (Flt.add_rounds usable_f64 s1 mz f1 fz) (by
    have : |(value s1 : ℝ) + value mz| ≤ 2 ^ 53 := (abs_add_le _ _).trans (by norm_num; linarith)
    exact_mod_cast this)
  push_cast at e2
  generalize Flt.add s1 mz = s at *
  have hln2 : ln ^ 2 = (da.x : ℝ) ^ 2 + (da.y : ℝ) ^ 2 + (da.z : ℝ) ^ 2 := by
    rw [ln2]; unfold dotZ; push_cast; ring
  have hlk2 : lk ^ 2 = (dc.x : ℝ) ^ 2 + (dc.y : ℝ) ^ 2 + (dc.z : ℝ) ^ 2 := by
    rw [lk2]; unfold dotZ; push_cast; ring
  have err := dot_error (abs_mul _ _).le (abs_mul _ _).le (abs_mul _ _).le ex ey ez (e1.trans (by norm_num)) (e2.trans (by norm_num))
  have cs := abs_products_le (by linarith) (by linarith) hln2 hlk2
  have gap := projection_gap (by linarith) (by linarith) hln2 hlk2 (by exact_mod_cast hcross)
  have fin := projection_differs (by rw [ln2]; exact a3') (by rw [lk2]; exact c3') ln1 lk1 gap
    (err.trans (by norm_num at *; linarith)) c5
  rw [Bool.eq_false_iff, ne_eq, feq_iff (abs_finite f2) c4, value_abs']
  intro hc
  apply fin
  rw [← hc]
  push_cast
  rfl

/-- With whole numbers up to 1000 all comparisons of the algorithm come out right. -/
theorem whole_exact (look : Nat → Out (P3 F64)) (hlook : ∀ i < n, look i = .ok (Q i)) (h4 : 4 ≤ n)
    (hgen : ∀ i < n, ∀ j < n, ∀ k < n, ∀ l < n, [i, j, k, l].Nodup → vol (fun i => realZ (Z i)) i j k l ≠ 0) :
    Exact look Q (fun i => realZ (Z i)) n := by
  have hnormal : ∀ a b c p, (dotZ (subZ (Z a) (Z p)) (crossZ (subZ (Z b) (Z a)) (subZ (Z c) (Z a))) : ℝ) =
      -vol (fun i => realZ (Z i)) a b c p := by
    intro a b c p
    simp only [dotZ, subZ, crossZ, vol, volume, realZ]
    push_cast
    ring
  refine ⟨hlook, hgen, ?_, ?_⟩
  · intro a ha b hb c hc _ _ _
    obtain ⟨n1, n2⟩ := whole_normal hQ hZ ha hb hc
    exact whole_rep hQ hZ ha _ _ n1 n2 (hnormal a b c)
  · intro v
    obtain ⟨p1, p2⟩ := whole_projection hQ hZ (by omega) (by omega) (by omega)
      (hgen 0 (by omega) 1 (by omega) 2 (by omega) 3 (by omega) (by decide))
    obtain ⟨n1, n2⟩ := whole_normal hQ hZ (a := 0) (b := 1) (c := 2) (by omega) (by omega) (by omega)
    refine ⟨calcNormal (Q 0) (Q 1) (Q 2), Vec3.neg (calcNormal (Q 0) (Q 1) (Q 2)), ?_, ?_, ?_⟩
    · unfold extendFirst
      rw [if_neg (by omega)]
      simp only [hlook 0 (by omega), hlook 1 (by omega), bind, Except.bind]
      rw [if_neg (by rw [show Arith.eq (Vec3.magnitudeSquared (Vec3.sub (Q 1) (Q 0))) Arith.zero = false from p1]; decide),
        if_neg (by rw [show Arith.eq (Arith.abs (Vec3.dot (Vec3.sub (Q 2) (Q 0)) (Vec3.normalize (Vec3.sub (Q 1) (Q 0)))))
          (Vec3.norm (Vec3.sub (Q 2) (Q 0))) = false from p2]; decide)]
      rfl
    · exact whole_rep hQ hZ (by omega) _ _ n1 n2 (hnormal 0 1 2)
    · refine whole_rep hQ hZ (by omega) _ _ n1.neg ⟨?_, ?_, ?_⟩ ?_
      · rw [abs_neg]; exact n2.x
      · rw [abs_neg]; exact n2.y
      · rw [abs_neg]; exact n2.z
      · intro p
        have e : vol (fun i => realZ (Z i)) 0 2 1 p = -vol (fun i => realZ (Z i)) 0 1 2 p := by unfold vol volume; ring
        rw [e, ← hnormal 0 1 2 p]
        simp only [dotZ]
        push_cast
        ring

end

/-! ## Real numbers -/

theorem real_lt (x y : ℝ) : Arith.lt x y = true ↔ x < y := decide_eq_true_iff

theorem real_eq (x y : ℝ) : Arith.eq x y = true ↔ x = y := decide_eq_true_iff

/-- In exact arithmetic all comparisons of the algorithm come out right. -/
theorem real_exact (R : Nat → P3 ℝ) (n : Nat) (look : Nat → Out (P3 ℝ)) (hlook : ∀ i < n, look i = .ok (R i)) (h4 : 4 ≤ n)
    (hgen : ∀ i < n, ∀ j < n, ∀ k < n, ∀ l < n, [i, j, k, l].Nodup → vol R i j k l ≠ 0) : Exact look R R n := by
  have rep : ∀ (a b c : Nat) (v : P3 ℝ), (∀ p, Vec3.dot (Vec3.sub (R a) (R p)) v = -vol R a b c p) → Rep R R n ⟨a, b, c, v⟩ := by
    intro a b c v h p _ _ _ _
    rw [real_lt, real_eq, h p]
    exact ⟨neg_lt_zero, neg_eq_zero⟩
  have hnormal : ∀ a b c p, Vec3.dot (Vec3.sub (R a) (R p)) (calcNormal (R a) (R b) (R c)) = -vol R a b c p := by
    intro a b c p
    simp only [Vec3.dot, Vec3.sub, calcNormal, Vec3.cross, Arith.add, Arith.sub, Arith.mul, vol, volume]
    ring
  refine ⟨hlook, hgen, fun a _ b _ c _ _ _ _ => rep a b c _ (hnormal a b c), ?_⟩
  intro v
  have hcr := cross_ne_zero (hgen 0 (by omega) 1 (by omega) 2 (by omega) 3 (by omega) (by decide))
  obtain ⟨a, ha⟩ : ∃ a, a = Vec3.sub (R 1) (R 0) := ⟨_, rfl⟩
  obtain ⟨c, hc⟩ : ∃ c, c = Vec3.sub (R 2) (R 0) := ⟨_, rfl⟩
  have hcross : a.y * c.z - a.z * c.y ≠ 0 ∨ a.z * c.x - a.x * c.z ≠ 0 ∨ a.x * c.y - a.y * c.x ≠ 0 := by
    rw [ha, hc]
    exact hcr
  have hsq : ∀ d : P3 ℝ, Vec3.magnitudeSquared d = d.x ^ 2 + d.y ^ 2 + d.z ^ 2 := by
    intro d
    simp only [Vec3.magnitudeSquared, Vec3.dot, Arith.add, Arith.mul, Arith.zero]
    ring
  have hpos : 0 < (a.y * c.z - a.z * c.y) ^ 2 + (a.z * c.x - a.x * c.z) ^ 2 + (a.x * c.y - a.y * c.x) ^ 2 := by
    rcases hcross with h | h | h <;> positivity
  have hprod : (a.x ^ 2 + a.y ^ 2 + a.z ^ 2) * (c.x ^ 2 + c.y ^ 2 + c.z ^ 2) = (c.x * a.x + c.y * a.y + c.z * a.z) ^ 2 +
      ((a.y * c.z - a.z * c.y) ^ 2 + (a.z * c.x - a.x * c.z) ^ 2 + (a.x * c.y - a.y * c.x) ^ 2) := by ring
  have ha0 : 0 < a.x ^ 2 + a.y ^ 2 + a.z ^ 2 := by
    have h1 : 0 ≤ a.x ^ 2 + a.y ^ 2 + a.z ^ 2 := by positivity
    rcases h1.lt_or_eq with h | h
    · exact h
    · rw [← h] at hprod
      nlinarith [sq_nonneg (c.x * a.x + c.y * a.y + c.z * a.z)]
  have p1 : ¬ Arith.eq (Vec3.magnitudeSquared (Vec3.sub (R 1) (R 0))) Arith.zero = true := by
    rw [real_eq, ← ha, hsq]
    exact ha0.ne'
  have p2 : ¬ Arith.eq (Arith.abs (Vec3.dot (Vec3.sub (R 2) (R 0)) (Vec3.normalize (Vec3.sub (R 1) (R 0)))))
      (Vec3.norm (Vec3.sub (R 2) (R 0))) = true := by
    rw [real_eq, ← ha, ← hc]
    intro he
    have hN : Vec3.norm a = √(a.x ^ 2 + a.y ^ 2 + a.z ^ 2) := by unfold Vec3.norm; rw [hsq]; rfl
    have hK : Vec3.norm c = √(c.x ^ 2 + c.y ^ 2 + c.z ^ 2) := by unfold Vec3.norm; rw [hsq]; rfl
    have hn0 : 0 < Vec3.norm a := by rw [hN]; exact Real.sqrt_pos.2 ha0
    have hdot : Vec3.dot c (Vec3.normalize a) = (c.x * a.x + c.y * a.y + c.z * a.z) / Vec3.norm a := by
      simp only [Vec3.dot, Vec3.normalize, Arith.add, Arith.mul, Arith.div]
      ring
    have h2 : (Vec3.dot c (Vec3.normalize a)) ^ 2 = (Vec3.norm c) ^ 2 := by
      rw [← he]
      exact (sq_abs _).symm
    rw [hdot, div_pow, div_eq_iff (by positivity), hN, hK, Real.sq_sqrt ha0.le, Real.sq_sqrt (by positivity)] at h2
    linarith
  refine ⟨calcNormal (R 0) (R 1) (R 2), Vec3.neg (calcNormal (R 0) (R 1) (R 2)), ?_, rep 0 1 2 _ (hnormal 0 1 2), ?_⟩
  · unfold extendFirst
    rw [if_neg (by omega)]
    simp only [hlook 0 (by omega), hlook 1 (by omega), bind, Except.bind]
    rw [if_neg p1, if_neg p2]
    rfl
  · refine rep 0 2 1 _ ?_
    intro p
    have e : vol R 0 2 1 p = -vol R 0 1 2 p := by unfold vol volume; ring
    rw [e, ← hnormal 0 1 2 p]
    simp only [Vec3.dot, Vec3.neg, Arith.add, Arith.mul, Arith.neg]
    ring

end Pasture.Hull
