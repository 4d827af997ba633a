import Mathlib.Tactic.Linarith
import Mathlib.Tactic.FieldSimp
import Verif.Props.Voxel
import Verif.Lemmas.FloatWhole

/-!
# The attributes of output points of the voxel grid: C68 and C69
-/

namespace Pasture.Props

open Spec Flt Voxel BorrowedBuffer OwningBuffer

/-! ## C68 -/

/-- An exact sum stays exact. -/
theorem ofUnits_whole {y : F64} {a : Int} {z : Bool} (ha : a.natAbs ≤ 2 ^ 53)
    (h : y = ofUnits .f64 (a * FloatFormat.f64.one) 1 z) : y.isFinite = true ∧ y.sunits = a * FloatFormat.f64.one := by
  have hF := usable_f64
  obtain ⟨f, s⟩ := ofInt_exact (F := .f64) hF ha
  have hr : y.rank = (Flt.ofInt .f64 a).rank := by rw [h, ← s, ofUnits_rank_self hF f]
  constructor
  · have h1 : (Flt.ofInt .f64 a).mag < FloatFormat.f64.infMag := of_decide_eq_true f
    apply decide_eq_true
    unfold rank at hr
    split_ifs at hr <;> omega
  · have h1 := (sunits_le_iff hF y (Flt.ofInt .f64 a)).2 ((rank_le hF _ _).1 hr.le)
    have h2 := (sunits_le_iff hF (Flt.ofInt .f64 a) y).2 ((rank_le hF _ _).1 hr.ge)
    rw [← s]
    omega

theorem sum_whole : ∀ (zs : List Int) (acc : F64) (a : Int), (∀ z ∈ zs, 0 ≤ z) → 0 ≤ a → a + zs.sum ≤ 2 ^ 53 →
    acc.isFinite = true → acc.sunits = a * FloatFormat.f64.one →
    ((zs.map (Flt.ofInt .f64)).foldl Flt.add acc).isFinite = true ∧
      ((zs.map (Flt.ofInt .f64)).foldl Flt.add acc).sunits = (a + zs.sum) * FloatFormat.f64.one := by
  intro zs
  induction zs with
  | nil => intro acc a _ _ _ hf hs; exact ⟨hf, by simpa using hs⟩
  | cons z zs ih =>
    intro acc a hz ha hle hf hs
    have hz0 := hz z List.mem_cons_self
    have hrest : 0 ≤ zs.sum := List.sum_nonneg fun y hy => hz y (List.mem_cons_of_mem _ hy)
    rw [List.sum_cons] at hle
    obtain ⟨f, s⟩ := ofInt_exact (F := .f64) usable_f64 (n := z) (by show _ ≤ 2 ^ 53; omega)
    have hadd := add_finite hf f
    rw [hs, s, ← Int.add_mul] at hadd
    obtain ⟨f', s'⟩ := ofUnits_whole (a := a + z) (by omega) hadd
    rw [List.map_cons, List.foldl_cons, List.sum_cons, ← Int.add_assoc]
    exact ih _ (a + z) (fun y hy => hz y (List.mem_cons_of_mem _ hy)) (by omega) (by omega) f' s'

/-- Rounding does not cross floats. -/
theorem rounds_ge {q : ℚ} {y z : F64} (h : RoundsTo q y) (hy : y.isFinite = true) (hz : z.isFinite = true)
    (hle : value z ≤ q) : value z ≤ value y := by
  have := h.nearest hy z hz
  rw [abs_of_nonneg (a := q - value z) (by linarith)] at this
  have := abs_le.1 this
  linarith

theorem rounds_le {q : ℚ} {y z : F64} (h : RoundsTo q y) (hy : y.isFinite = true) (hz : z.isFinite = true)
    (hle : q ≤ value z) : value y ≤ value z := by
  have := h.nearest hy z hz
  rw [abs_of_nonpos (a := q - value z) (by linarith)] at this
  have := abs_le.1 this
  linarith

/-- Numbers with up to 53 bits and 36 of them after the point are floats. -/
theorem fraction_exists (m : Nat) (hm : m ≤ 2 ^ 53) : ∃ z : F64, z.isFinite = true ∧ value z = (m : ℚ) / 2 ^ 36 := by
  have hF := usable_f64
  obtain ⟨k, hk⟩ := exists_units .f64 (1074 - 36) m hm
  have hone : FloatFormat.f64.one = 2 ^ (1074 - 36) * 2 ^ 36 := by decide +kernel
  refine ⟨⟨false, k⟩, ?_, ?_⟩
  · apply decide_eq_true
    show k < FloatFormat.f64.infMag
    apply units_lt_inf
    rw [hk]
    refine Nat.lt_of_le_of_lt (Nat.mul_le_mul_right _ hm) ?_
    decide +kernel
  · rw [value_eq hF]
    have : sunits (F := .f64) ⟨false, k⟩ = FloatFormat.f64.units k := rfl
    rw [this, hk, hone]
    generalize (1074 - 36 : Nat) = t
    push_cast
    have : (2 : ℚ) ^ t ≠ 0 := by positivity
    field_simp
    norm_num

/-- The computed mean of up to 2^36 numbers of 16 bits, truncated, is the exact mean, truncated. -/
theorem mean_floor (zs : List Int) (hz : ∀ z ∈ zs, 0 ≤ z ∧ z ≤ 65535) (h0 : 0 < zs.length) (hn : zs.length ≤ 2 ^ 36) :
    asNum .u16 (.double (computedMean (zs.map (Flt.ofInt .f64)))) = .int (zs.sum / zs.length) := by
  have hF := usable_f64
  have hone : (0 : ℚ) < FloatFormat.f64.one := by exact_mod_cast FloatFormat.one_pos (F := .f64)
  have hsum0 : 0 ≤ zs.sum := List.sum_nonneg fun z h => (hz z h).1
  have hsum : zs.sum ≤ zs.length * 65535 := by
    clear h0 hn hsum0
    induction zs with
    | nil => simp
    | cons z zs ih =>
      have := ih fun y hy => hz y (List.mem_cons_of_mem _ hy)
      have := (hz z List.mem_cons_self).2
      rw [List.sum_cons, List.length_cons]
      push_cast
      linarith
  have hn' : (zs.length : Int) ≤ 2 ^ 36 := by exact_mod_cast hn
  obtain ⟨f1, s1⟩ := sum_whole zs (Flt.zero .f64) 0 (fun z h => (hz z h).1) (Int.le_refl _) (by nlinarith)
    (by decide +kernel) (by unfold sunits zero; simp [FloatFormat.units_zero])
  obtain ⟨f2, s2⟩ := ofInt_exact (F := .f64) hF (n := zs.length) (by show _ ≤ 2 ^ 53; omega)
  rw [Int.zero_add] at s1
  have v1 : value ((zs.map (Flt.ofInt .f64)).foldl Flt.add (Flt.zero .f64)) = zs.sum := by
    rw [value_eq hF, s1]
    push_cast
    field_simp
  have v2 : value (Flt.ofInt .f64 zs.length) = zs.length := by
    rw [value_eq hF, s2]
    push_cast
    field_simp
  have hlenq : (0 : ℚ) < zs.length := by exact_mod_cast h0
  have hr := div_rounds hF _ _ f1 f2 (by rw [v2]; exact hlenq.ne')
  rw [v1, v2] at hr
  have hmean : computedMean (zs.map (Flt.ofInt .f64)) =
      ((zs.map (Flt.ofInt .f64)).foldl Flt.add (Flt.zero .f64)).div (Flt.ofInt .f64 zs.length) := by
    unfold computedMean
    rw [List.length_map]
  rw [← hmean] at hr
  clear hmean v1 v2 s1 s2 f1 f2 hone
  generalize computedMean (zs.map (Flt.ofInt .f64)) = y at hr
  -- bounds of the exact mean
  obtain ⟨k, hk⟩ : ∃ k : Nat, zs.sum / zs.length = k := ⟨(zs.sum / zs.length).toNat, by
    rw [Int.toNat_of_nonneg (Int.ediv_nonneg hsum0 (by omega))]⟩
  have hlen0 : (0 : Int) < zs.length := by exact_mod_cast h0
  have hk1 : (k : Int) * zs.length ≤ zs.sum := by rw [← hk]; exact Int.ediv_mul_le _ hlen0.ne'
  have hk2 : zs.sum + 1 ≤ (k + 1) * zs.length := by rw [← hk]; exact Int.lt_ediv_add_one_mul_self _ hlen0
  have hk3 : (k : Int) ≤ 65535 := by
    rw [← hk]
    exact Int.ediv_le_of_le_mul hlen0 (by linarith)
  have hk3' : k ≤ 65535 := by exact_mod_cast hk3
  have q1 : (k : ℚ) ≤ zs.sum / zs.length := by
    rw [le_div_iff₀ hlenq]
    exact_mod_cast hk1
  have q2 : (zs.sum : ℚ) / zs.length ≤ ((k + 1) * 2 ^ 36 - 1 : Nat) / 2 ^ 36 := by
    have e : (((k + 1) * 2 ^ 36 - 1 : Nat) : ℚ) = (k + 1) * 2 ^ 36 - 1 := by
      rw [Nat.cast_sub (by omega)]
      push_cast
      ring
    rw [e, div_le_div_iff₀ hlenq (by positivity)]
    have a1 : (zs.sum : ℚ) + 1 ≤ (k + 1) * zs.length := by exact_mod_cast hk2
    have a2 : (zs.length : ℚ) ≤ 2 ^ 36 := by exact_mod_cast hn
    nlinarith
  have hfin : y.isFinite = true := by
    apply finite_of_small hr
    rw [abs_of_nonneg (div_nonneg (by exact_mod_cast hsum0) hlenq.le), div_le_iff₀ hlenq]
    have : (zs.sum : ℚ) ≤ zs.length * 65535 := by exact_mod_cast hsum
    nlinarith
  obtain ⟨z1, fz1, vz1⟩ := fraction_exists (k * 2 ^ 36) (by omega)
  obtain ⟨z2, fz2, vz2⟩ := fraction_exists ((k + 1) * 2 ^ 36 - 1) (by omega)
  have b1 : (k : ℚ) ≤ value y := by
    have hv : value z1 = k := by rw [vz1]; push_cast; field_simp; norm_num
    rw [← hv]
    exact rounds_ge hr hfin fz1 (by rw [hv]; exact q1)
  have b2 : value y < k + 1 := by
    have := rounds_le hr hfin fz2 (by rw [vz2]; exact q2)
    refine lt_of_le_of_lt (this.trans_eq vz2) ?_
    rw [Nat.cast_sub (by omega)]
    push_cast
    rw [div_lt_iff₀ (by positivity)]
    linarith
  have htr : trunc (value y) = k := by
    unfold trunc
    rw [if_neg (not_lt.2 (le_trans (by positivity) b1))]
    exact Int.floor_eq_iff.2 ⟨by exact_mod_cast b1, by exact_mod_cast b2⟩
  show Num.int (y.toIntSat Prim.u16.lo Prim.u16.hi) = _
  rw [toIntSat_eq hF y hfin, htr, hk]
  congr 1
  have : Prim.u16.lo = 0 := rfl
  have : Prim.u16.hi = 65535 := rfl
  omega

/-- Component `j` of all values. -/
def componentsOf (t : DataType) (vals : List Bytes) (j : Nat) : List Int :=
  vals.filterMap fun v =>
    match (numbersOf t v)[j]? with
    | some (.int z) => some z
    | _ => none

theorem component_u16 {t : DataType} (ht : Spec.numberType t = some .u16) {v : Bytes} (hv : v.length = t.size) (j : Nat) :
    (numbersOf t v)[j]? = none ∨ ∃ z, (numbersOf t v)[j]? = some (.int z) ∧ 0 ≤ z ∧ z ≤ 65535 := by
  have hread : ∀ w : Bytes, w.length = 2 → ∃ z, readNum .u16 w = .int z ∧ 0 ≤ z ∧ z ≤ 65535 := by
    intro w hw
    have := read_range (p := .u16) rfl hw (readNum_int rfl w)
    exact ⟨_, readNum_int rfl w, this.1, this.2⟩
  cases t with
  | u16 =>
    obtain ⟨z, h1, h2⟩ := hread v hv
    match j with
    | 0 => exact .inr ⟨z, congrArg some h1, h2⟩
    | j + 1 => exact .inl rfl
  | vec3u16 =>
    have hv : v.length = 6 := hv
    obtain ⟨a, a1, a2⟩ := hread (window v 0 2) (length_window (by omega))
    obtain ⟨c, c1, c2⟩ := hread (window v 2 2) (length_window (by omega))
    obtain ⟨d, d1, d2⟩ := hread (window v 4 2) (length_window (by omega))
    match j with
    | 0 => exact .inr ⟨a, congrArg some a1, a2⟩
    | 1 => exact .inr ⟨c, congrArg some c1, c2⟩
    | 2 => exact .inr ⟨d, congrArg some d1, d2⟩
    | j + 3 => exact .inl rfl
  | u8 | i8 | i16 | u32 | i32 | u64 | i64 | f32 | f64 | vec3u8 | vec3i32 | vec3f32 | vec3f64 | vec4u8 | byteArray _ | custom _ _ _ =>
    cases ht

/-- **C68**: every component of a colour, intensity or infrared value of an output point is the mean of those of the points
    of its voxel, rounded down, for voxels of up to 2^36 points. Missing are
    larger ones: from some size on it is false (`C68_violated`). -/
theorem C68_partial (l : PointLayout) (ps : List Point) (indices : List Nat) (q : Point) (h : IsCentroid l ps indices q)
    (m : Member) (hm : m ∈ l.attributes) (hd : m.definition ∈ averaged)
    (ht : Spec.numberType m.definition.datatype = some .u16)
    (hlen : ∀ v ∈ valuesAt ps indices m.definition, v.length = m.size)
    (h0 : 0 < (valuesAt ps indices m.definition).length) (hn : (valuesAt ps indices m.definition).length ≤ 2 ^ 36) :
    ∃ v, q.get m.definition = some v ∧ v.length = m.size ∧ ∀ (j : Nat) x, (numbersOf m.definition.datatype v)[j]? = some x →
      x = .int ((componentsOf m.definition.datatype (valuesAt ps indices m.definition) j).sum /
        (valuesAt ps indices m.definition).length) := by
  obtain ⟨v, hv, hvl, hr⟩ := h.2 m hm
  refine ⟨v, hv, hvl, ?_⟩
  intro j x hx
  rw [hr.mean hd .u16 ht j x hx]
  -- every value has this component
  have hj : ∀ w : Bytes, w.length = m.size → ∃ z, (numbersOf m.definition.datatype w)[j]? = some (.int z) ∧ 0 ≤ z ∧ z ≤ 65535 := by
    intro w hw
    have hcount : (numbersOf m.definition.datatype w).length = (numbersOf m.definition.datatype v).length := by
      unfold numbersOf
      split <;> rfl
    rcases component_u16 ht hw j with hnone | h
    · rw [List.getElem?_eq_none_iff, hcount] at hnone
      rw [List.getElem?_eq_none hnone] at hx
      cases hx
    · exact h
  have key : ∀ vals : List Bytes, (∀ w ∈ vals, w.length = m.size) →
      ((vals.filterMap fun w => (numbersOf m.definition.datatype w)[j]?).map toDouble =
        (componentsOf m.definition.datatype vals j).map (Flt.ofInt .f64)) ∧
      (componentsOf m.definition.datatype vals j).length = vals.length ∧
      ∀ z ∈ componentsOf m.definition.datatype vals j, 0 ≤ z ∧ z ≤ 65535 := by
    intro vals
    induction vals with
    | nil => intro _; exact ⟨rfl, rfl, by intro z hz; cases hz⟩
    | cons w vals ih =>
      intro hall
      obtain ⟨z, h1, h2⟩ := hj w (hall w List.mem_cons_self)
      obtain ⟨i1, i2, i3⟩ := ih fun u hu => hall u (List.mem_cons_of_mem _ hu)
      have e : componentsOf m.definition.datatype (w :: vals) j = z :: componentsOf m.definition.datatype vals j := by
        unfold componentsOf
        rw [List.filterMap_cons, h1]
      rw [e, List.filterMap_cons, h1]
      refine ⟨?_, by simp [i2], ?_⟩
      · show toDouble (.int z) :: _ = _
        rw [i1]
        rfl
      · intro y hy
        rcases List.mem_cons.1 hy with rfl | hy
        · exact h2
        · exact i3 y hy
  obtain ⟨k1, k2, k3⟩ := key _ hlen
  rw [k1, mean_floor _ k3 (by omega) (by omega), k2]

/-- Counting in f64 stops at 2^53. -/
theorem count_stops (k : Nat) :
    ((List.replicate (2 ^ 53 + k) 1).map (Flt.ofInt .f64)).foldl Flt.add (Flt.zero .f64) = Flt.ofInt .f64 (2 ^ 53) := by
  have hF := usable_f64
  have hstay : ∀ k : Nat, ((List.replicate k 1).map (Flt.ofInt .f64)).foldl Flt.add (Flt.ofInt .f64 (2 ^ 53)) =
      Flt.ofInt .f64 (2 ^ 53) := by
    have hone : Flt.add (Flt.ofInt .f64 (2 ^ 53)) (Flt.ofInt .f64 1) = Flt.ofInt .f64 (2 ^ 53) := by decide +kernel
    intro k
    induction k with
    | zero => rfl
    | succ k ih => rw [List.replicate_succ, List.map_cons, List.foldl_cons, hone, ih]
  have hreach : ∀ n : Nat, n ≤ 2 ^ 53 → ((List.replicate n 1).map (Flt.ofInt .f64)).foldl Flt.add (Flt.zero .f64) =
      Flt.ofInt .f64 n := by
    intro n
    induction n with
    | zero => intro _; decide +kernel
    | succ n ih =>
      intro hn
      rw [List.replicate_succ', List.map_append, List.foldl_append, ih (by omega), List.map_singleton, List.foldl_cons,
        List.foldl_nil]
      obtain ⟨f1, s1⟩ := ofInt_exact (F := .f64) hF (n := (n : Int)) (by show _ ≤ 2 ^ 53; omega)
      obtain ⟨f2, s2⟩ := ofInt_exact (F := .f64) hF (n := 1) (by show _ ≤ 2 ^ 53; omega)
      have hadd := add_finite f1 f2
      rw [s1, s2, ← Int.add_mul] at hadd
      rw [hadd]
      have hpos : (((n : Int) + 1) * FloatFormat.f64.one) ≠ 0 :=
        Int.mul_ne_zero (by omega) (by have := FloatFormat.one_pos (F := .f64); omega)
      unfold Flt.ofInt ofUnits
      push_cast
      rw [if_neg hpos, if_neg hpos]
  rw [List.replicate_add, List.map_append, List.foldl_append, hreach _ (Nat.le_refl _)]
  exact hstay k

theorem mean_of_ones : asNum .u16 (.double (computedMean ((List.replicate (2 ^ 54) 1).map (Flt.ofInt .f64)))) = .int 0 := by
  have hmean : ∀ k : Nat, computedMean ((List.replicate (2 ^ 53 + k) 1).map (Flt.ofInt .f64)) =
      (Flt.ofInt .f64 (2 ^ 53)).div (Flt.ofInt .f64 ((2 ^ 53 + k : Nat) : Int)) := by
    intro k
    unfold computedMean
    rw [count_stops, List.length_map, List.length_replicate]
  rw [show (2 : Nat) ^ 54 = 2 ^ 53 + 2 ^ 53 by decide, hmean]
  decide +kernel

/-- **C68, violated** for voxels of 2^54 points: the sum of as many ones is 2^53 in f64, so that points which all have the
    intensity 1 give a point with the intensity 0. -/
theorem C68_violated (l : PointLayout) (ps : List Point) (indices : List Nat) (q : Point) (h : IsCentroid l ps indices q)
    (m : Member) (hm : m ∈ l.attributes) (hd : m.definition = ⟨"Intensity", .u16⟩)
    (hv : valuesAt ps indices m.definition = List.replicate (2 ^ 54) (writeNum .u16 (.int 1))) :
    ∃ v, q.get m.definition = some v ∧ numbersOf .u16 v = [.int 0] ∧
      (componentsOf .u16 (valuesAt ps indices m.definition) 0).sum / (valuesAt ps indices m.definition).length = 1 := by
  obtain ⟨v, h1, h2, h3⟩ := h.2 m hm
  have hnum : ∀ w, (numbersOf .u16 w)[0]? = some (readNum .u16 w) := fun _ => rfl
  have hone : readNum .u16 (writeNum .u16 (.int 1)) = .int 1 := by decide +kernel
  refine ⟨v, h1, ?_, ?_⟩
  · have := h3.mean (by rw [hd]; decide) .u16 (by rw [hd]; rfl) 0 (readNum .u16 v) (by rw [hd]; rfl)
    rw [show numbersOf .u16 v = [readNum .u16 v] from rfl, this, hv, hd]
    have hmap : ∀ n : Nat, ((List.replicate n (writeNum .u16 (.int 1))).filterMap fun w => (numbersOf .u16 w)[0]?).map toDouble =
        (List.replicate n 1).map (Flt.ofInt .f64) := by
      intro n
      induction n with
      | zero => rfl
      | succ n ih =>
        rw [List.replicate_succ, List.filterMap_cons, hnum, hone, List.map_cons, ih]
        rfl
    dsimp only
    rw [hmap, mean_of_ones]
  · rw [hv]
    have hcomp : ∀ n : Nat, componentsOf .u16 (List.replicate n (writeNum .u16 (.int 1))) 0 = List.replicate n 1 := by
      intro n
      induction n with
      | zero => rfl
      | succ n ih =>
        unfold componentsOf at ih ⊢
        rw [List.replicate_succ, List.filterMap_cons, hnum, hone, ih]
        rfl
    have hpos : 0 < 2 ^ 54 := by decide
    generalize (2 : Nat) ^ 54 = n at hpos ⊢
    rw [hcomp, List.length_replicate, List.sum_replicate, nsmul_eq_mul, mul_one]
    exact Int.ediv_self (by omega)

/-- The points of such a voxel. -/
example : valuesAt (List.replicate (2 ^ 54) [(⟨"Intensity", .u16⟩, writeNum .u16 (.int 1))]) (List.range (2 ^ 54))
    ⟨"Intensity", .u16⟩ = List.replicate (2 ^ 54) (writeNum .u16 (.int 1)) := by
  generalize (2 : Nat) ^ 54 = n
  unfold valuesAt
  rw [List.eq_replicate_iff]
  have : ((List.range n).filterMap fun i =>
      (List.replicate n [((⟨"Intensity", .u16⟩ : AttrDef), writeNum .u16 (.int 1))])[i]?.bind fun p =>
        Point.get p ⟨"Intensity", .u16⟩) = (List.range n).map fun _ => writeNum .u16 (.int 1) := by
    rw [← List.filterMap_eq_map]
    apply List.filterMap_congr
    intro i hi
    rw [List.getElem?_replicate, if_pos (List.mem_range.1 hi)]
    rfl
  rw [this]
  simp

/-! ## C69 -/

/-- C69: the value of an attribute such as the classification is one of those of the points of the voxel, and none of
    these occurs more often. -/
theorem C69_partial (l : PointLayout) (ps : List Point) (indices : List Nat) (q : Point) (h : IsCentroid l ps indices q)
    (m : Member) (hm : m ∈ l.attributes) (hd : m.definition ∈ elected) :
    ∃ v z, q.get m.definition = some v ∧ numbersOf m.definition.datatype v = [.int z] ∧
      MostCommon z (integersOf m.definition.datatype (valuesAt ps indices m.definition)) ∧
      ∀ y, (∀ x, x ≠ y → (integersOf m.definition.datatype (valuesAt ps indices m.definition)).count x <
        (integersOf m.definition.datatype (valuesAt ps indices m.definition)).count y) → z = y := by
  obtain ⟨v, hv, _, hr⟩ := h.2 m hm
  obtain ⟨z, h1, h2⟩ := hr.mode hd
  refine ⟨v, z, hv, h1, h2, ?_⟩
  intro y hy
  by_contra hne
  exact absurd (hy z hne) (Nat.not_lt.2 (h2.2 y))

namespace VoxelExample

def classLayout : PointLayout := ⟨[⟨position3D, 0⟩, ⟨Las.classification, 24⟩, ⟨Las.intensity, 26⟩], 32, 8⟩

theorem classLayout_solid : Solid classLayout :=
  ⟨by decide +kernel, by decide +kernel, by decide +kernel, by decide +kernel, by decide +kernel⟩

def classRecord (c i : Int) : Bytes := zeros 24 ++ writeNum .u8 (.int c) ++ zeros 1 ++ writeNum .u16 (.int i) ++ zeros 4

def classBuffer : VectorBuffer := Interleaved.ofRecords classLayout [classRecord 2 5, classRecord 6 6]

end VoxelExample

open VoxelExample in
/-- C69, violated: if two values are equally common, the result depends on the iteration order of a hash map. -/
theorem C69_violated :
    voxelgridFilter 1 id classBuffer (cube 1) (VectorBuffer.newFromLayout classLayout) =
      some (.ok (Interleaved.ofRecords classLayout [classRecord 2 5])) ∧
    voxelgridFilter 1 List.reverse classBuffer (cube 1) (VectorBuffer.newFromLayout classLayout) =
      some (.ok (Interleaved.ofRecords classLayout [classRecord 6 5])) := by
  decide +kernel

open VoxelExample in
/-- The points of such a buffer meet the hypotheses of C68 and C69. -/
example (q : Point) (h : IsCentroid classLayout ([classRecord 2 5, classRecord 6 6].map (pointOf classLayout)) [0, 1] q) :
    (∃ v, q.get Las.intensity = some v ∧ v.length = 2 ∧ ∀ (j : Nat) x, (numbersOf .u16 v)[j]? = some x →
      x = .int ((componentsOf .u16
        (valuesAt ([classRecord 2 5, classRecord 6 6].map (pointOf classLayout)) [0, 1] Las.intensity) j).sum /
          (valuesAt ([classRecord 2 5, classRecord 6 6].map (pointOf classLayout)) [0, 1] Las.intensity).length)) ∧
    ∃ v z, q.get Las.classification = some v ∧ numbersOf .u8 v = [.int z] ∧
      MostCommon z (integersOf .u8
        (valuesAt ([classRecord 2 5, classRecord 6 6].map (pointOf classLayout)) [0, 1] Las.classification)) := by
  constructor
  · exact C68_partial classLayout _ [0, 1] q h ⟨Las.intensity, 26⟩ (by decide +kernel) (by decide +kernel) rfl (by decide +kernel)
      (by decide +kernel) (by decide +kernel)
  · obtain ⟨v, z, h1, h2, h3, _⟩ := C69_partial classLayout _ [0, 1] q h ⟨Las.classification, 24⟩ (by decide +kernel) (by decide +kernel)
    exact ⟨v, z, h1, h2, h3⟩

end Pasture.Props
