import Verif.Lemmas.FloatOps
import Verif.Lemmas.FloatExact

/-!
# Order and rounding: arithmetic on floats is monotone
-/

namespace Pasture

open Spec Flt

variable {F : FloatFormat}

theorem ofUnits_rank_mono (hF : Usable F) {a b : Int} (h : a ≤ b) {d : Nat} (hd : 0 < d) (z w : Bool) :
    (ofUnits F a d z).rank ≤ (ofUnits F b d w).rank := by
  have key : ∀ {m n : Nat}, m ≤ n → roundMag F m d ≤ roundMag F n d := fun h =>
    roundMag_mono hd hd hF.1 (Nat.mul_le_mul_right _ h)
  have hz := roundMag_zero hF hd
  unfold ofUnits rank
  dsimp only
  by_cases ha : a = 0
  · subst ha
    by_cases hb : b = 0
    · subst hb
      rw [if_pos rfl, if_pos rfl, show Int.natAbs 0 = 0 from rfl, hz]
      split <;> split <;> simp
    · rw [if_pos rfl, if_neg hb, show Int.natAbs 0 = 0 from rfl, hz, decide_eq_false (by omega)]
      split <;> simp
  · rw [if_neg ha]
    by_cases hb : b = 0
    · subst hb
      rw [if_pos rfl, decide_eq_true (show a < 0 by omega), show Int.natAbs 0 = 0 from rfl, hz, if_pos rfl]
      split <;> simp
    · rw [if_neg hb]
      by_cases hna : a < 0
      · rw [decide_eq_true hna, if_pos rfl]
        by_cases hnb : b < 0
        · rw [decide_eq_true hnb, if_pos rfl]
          have := key (show b.natAbs ≤ a.natAbs by omega)
          omega
        · rw [decide_eq_false hnb, if_neg Bool.false_ne_true]
          omega
      · rw [decide_eq_false hna, decide_eq_false (show ¬ b < 0 by omega), if_neg Bool.false_ne_true,
          if_neg Bool.false_ne_true]
        have := key (show a.natAbs ≤ b.natAbs by omega)
        omega

theorem ofUnits_notNaN (a : Int) (d : Nat) (z : Bool) : (ofUnits F a d z).isNaN = false := by
  unfold ofUnits isNaN roundMag
  simp

/-- A finite float is exactly representable. -/
theorem ofUnits_rank_self (hF : Usable F) {x : Flt F} (hx : x.isFinite = true) (z : Bool) :
    (ofUnits F x.sunits 1 z).rank = x.rank := by
  have hm : x.mag < F.infMag := of_decide_eq_true hx
  have h1 : roundMag F x.sunits.natAbs 1 = x.mag := by
    rw [sunits_natAbs]
    have := roundMag_exact (F := F) (den := 1) (k := x.mag) (by omega) hF.1 (by omega)
    simpa using this
  unfold ofUnits rank
  dsimp only
  rw [h1]
  by_cases h0 : x.mag = 0
  · rw [h0]
    split <;> split <;> simp
  · have hp := FloatFormat.units_pos (F := F) (Nat.pos_of_ne_zero h0)
    have hs : x.sunits ≠ 0 := by
      unfold sunits
      split <;> omega
    rw [if_neg hs]
    have : decide (x.sunits < 0) = x.neg := by
      unfold sunits
      cases x.neg <;> simp <;> omega
    rw [this]

theorem sunits_le_iff (hF : Usable F) (x y : Flt F) : x.sunits ≤ y.sunits ↔ value x ≤ value y := by
  rw [value_eq hF, value_eq hF]
  have : (0 : ℚ) < F.one := by exact_mod_cast FloatFormat.one_pos (F := F)
  rw [div_le_div_iff_of_pos_right this]
  exact_mod_cast Iff.rfl

theorem rank_le (hF : Usable F) (x y : Flt F) : x.rank ≤ y.rank ↔ value x ≤ value y := by
  rw [← not_lt, ← not_lt, rank_lt hF]

theorem rank_bounds {x : Flt F} (hx : x.isNaN = false) : -(F.infMag : Int) ≤ x.rank ∧ x.rank ≤ F.infMag := by
  have : ¬ F.infMag < x.mag := of_decide_eq_false hx
  unfold rank
  split <;> omega

theorem add_finite {x y : Flt F} (hx : x.isFinite = true) (hy : y.isFinite = true) :
    x.add y = ofUnits F (x.sunits + y.sunits) 1 (x.neg && y.neg) := by
  unfold add
  rw [if_neg (by rw [(finite_cases hx).1, (finite_cases hy).1]; simp), if_neg (by rw [(finite_cases hx).2]; simp),
    if_neg (by rw [(finite_cases hy).2]; simp)]

theorem add_inf {x y : Flt F} (hx : x.isFinite = true) (hy : y.isInf = true) : x.add y = y := by
  have hn : y.isNaN = false := by
    have : y.mag = F.infMag := of_decide_eq_true hy
    exact decide_eq_false (by omega)
  unfold add
  rw [if_neg (by rw [(finite_cases hx).1, hn]; simp), if_neg (by rw [(finite_cases hx).2]; simp), if_pos hy]

theorem finite_or_inf {x : Flt F} (hx : x.isNaN = false) : x.isFinite = true ∨ x.isInf = true := by
  have : ¬ F.infMag < x.mag := of_decide_eq_false hx
  unfold isFinite isInf
  rw [decide_eq_true_iff, decide_eq_true_iff]
  omega

theorem add_notNaN {x y : Flt F} (hx : x.isFinite = true) (hy : y.isNaN = false) : (x.add y).isNaN = false := by
  rcases finite_or_inf hy with h | h
  · rw [add_finite hx h]; exact ofUnits_notNaN _ _ _
  · rw [add_inf hx h]; exact hy

/-- Addition of a finite float is monotone. -/
theorem add_rank_mono (hF : Usable F) {x y z : Flt F} (hx : x.isFinite = true) (hy : y.isNaN = false)
    (hz : z.isNaN = false) (h : y.rank ≤ z.rank) : (x.add y).rank ≤ (x.add z).rank := by
  have hfin : ∀ {w : Flt F}, w.isFinite = true → -(F.infMag : Int) < w.rank ∧ w.rank < F.infMag := by
    intro w hw
    have : w.mag < F.infMag := of_decide_eq_true hw
    unfold rank
    split <;> omega
  have hinf : ∀ {w : Flt F}, w.isInf = true → w.rank = F.infMag ∨ w.rank = -(F.infMag : Int) := by
    intro w hw
    have : w.mag = F.infMag := of_decide_eq_true hw
    unfold rank
    split <;> omega
  rcases finite_or_inf hy with h1 | h1
  · rcases finite_or_inf hz with h2 | h2
    · rw [add_finite hx h1, add_finite hx h2]
      apply ofUnits_rank_mono hF _ (by omega)
      have := (rank_le hF y z).1 h
      have := (sunits_le_iff hF y z).2 this
      omega
    · rw [add_inf hx h2]
      have := hfin h1
      rcases hinf h2 with h3 | h3
      · rw [h3]; exact (rank_bounds (add_notNaN hx hy)).2
      · omega
  · rw [add_inf hx h1]
    have := rank_bounds hz
    rcases hinf h1 with h3 | h3
    · have h4 : z.isInf = true := by
        rcases finite_or_inf hz with h2 | h2
        · have := hfin h2; omega
        · exact h2
      rw [add_inf hx h4]
      exact h
    · rw [h3]; exact (rank_bounds (add_notNaN hx hz)).1

theorem negate_rank (x : Flt F) : (negate x).rank = -x.rank := by
  unfold negate rank
  cases x.neg <;> simp

theorem negate_notNaN {x : Flt F} (hx : x.isNaN = false) : (negate x).isNaN = false := hx

/-- Subtraction from a finite float is antitone. -/
theorem sub_rank_anti (hF : Usable F) {x y z : Flt F} (hx : x.isFinite = true) (hy : y.isNaN = false)
    (hz : z.isNaN = false) (h : y.rank ≤ z.rank) : (x.sub z).rank ≤ (x.sub y).rank := by
  apply add_rank_mono hF hx (negate_notNaN hz) (negate_notNaN hy)
  rw [negate_rank, negate_rank]
  omega

theorem add_comm' (hF : Usable F) {x y : Flt F} (hx : x.isFinite = true) (hy : y.isNaN = false) :
    x.add y = y.add x := by
  rcases finite_or_inf hy with h | h
  · rw [add_finite hx h, add_finite h hx, Int.add_comm, Bool.and_comm]
  · rw [add_inf hx h]
    unfold add
    rw [if_neg (by rw [(finite_cases hx).1, hy]; simp), if_pos h, if_neg (by rw [(finite_cases hx).2]; simp)]

/-- Subtraction of a finite float is monotone. -/
theorem sub_rank_mono (hF : Usable F) {x y z : Flt F} (hx : x.isFinite = true) (hy : y.isNaN = false)
    (hz : z.isNaN = false) (h : y.rank ≤ z.rank) : (y.sub x).rank ≤ (z.sub x).rank := by
  unfold sub
  have hn : (negate x).isFinite = true := hx
  rw [← add_comm' hF hn hy, ← add_comm' hF hn hz]
  exact add_rank_mono hF hn hy hz h

/-- Adding something that is not negative does not make a float smaller. -/
theorem le_add_rank (hF : Usable F) {x y : Flt F} (hx : x.isFinite = true) (hy : y.isNaN = false) (h : 0 ≤ y.rank) :
    x.rank ≤ (x.add y).rank := by
  have h0 : (zero F).isFinite = true := decide_eq_true (by have := infMag_pos hF; show 0 < _; omega)
  have := add_rank_mono hF hx (y := zero F) (finite_cases h0).1 hy (by simpa [zero, rank] using h)
  rw [add_finite hx h0] at this
  have e : (zero F).sunits = 0 := by simp [zero, sunits, FloatFormat.units_zero]
  rw [e, Int.add_zero, ofUnits_rank_self hF hx] at this
  exact this

/-- Adding something that is not positive does not make a float larger. -/
theorem add_rank_le (hF : Usable F) {x y : Flt F} (hx : x.isFinite = true) (hy : y.isNaN = false) (h : y.rank ≤ 0) :
    (x.add y).rank ≤ x.rank := by
  have h0 : (zero F).isFinite = true := decide_eq_true (by have := infMag_pos hF; show 0 < _; omega)
  have := add_rank_mono hF hx hy (z := zero F) (finite_cases h0).1 (by simpa [zero, rank] using h)
  rw [add_finite hx h0] at this
  have e : (zero F).sunits = 0 := by simp [zero, sunits, FloatFormat.units_zero]
  rw [e, Int.add_zero, ofUnits_rank_self hF hx] at this
  exact this

theorem lt_rank {x y : Flt F} (hx : x.isNaN = false) (hy : y.isNaN = false) : Flt.lt x y = true ↔ x.rank < y.rank := by
  unfold Flt.lt
  rw [hx, hy]
  simp

theorem le_rank {x y : Flt F} (hx : x.isNaN = false) (hy : y.isNaN = false) : Flt.le x y = true ↔ x.rank ≤ y.rank := by
  unfold Flt.le
  rw [hx, hy]
  simp

theorem sub_notNaN {x y : Flt F} (hx : x.isFinite = true) (hy : y.isNaN = false) : (x.sub y).isNaN = false :=
  add_notNaN hx hy

theorem sub_notNaN' (hF : Usable F) {x y : Flt F} (hx : x.isNaN = false) (hy : y.isFinite = true) :
    (x.sub y).isNaN = false := by
  unfold sub
  have hn : (negate y).isFinite = true := hy
  rw [← add_comm' hF hn hx]
  exact add_notNaN hn hx

end Pasture
