import Verif.Spec.TwoSteps
import Verif.Lemmas.RoundTrip

/-!
# Conversions in two steps
-/

namespace Pasture

open Spec

theorem roundMag_scale {F : FloatFormat} (hF : Usable F) {a b c d : Nat} (hb : 0 < b) (hd : 0 < d)
    (h : a * d = c * b) : roundMag F a b = roundMag F c d :=
  Nat.le_antisymm (roundMag_mono hb hd hF.1 h.le) (roundMag_mono hd hb hF.1 h.ge)

/-- An integer that is a float of one format becomes the same float of another format through it. -/
theorem cast_ofInt {F G : FloatFormat} (hF : Usable F) (hG : Usable G) {n : Int}
    (hn : n.natAbs ≤ 2 ^ (F.mantBits + 1)) : (Flt.ofInt F n).cast G = Flt.ofInt G n := by
  obtain ⟨h1, h2⟩ := ofInt_exact hF hn
  obtain ⟨h3, h4⟩ := Flt.finite_cases h1
  unfold Flt.cast
  rw [h3, h4, h2]
  have hf := F.one_pos
  have hg := G.one_pos
  show Flt.ofUnits G (n * F.one * G.one) F.one (Flt.ofInt F n).neg = Flt.ofUnits G (n * G.one) 1
  unfold Flt.ofUnits
  have hm : roundMag G (n * F.one * G.one).natAbs F.one = roundMag G (n * G.one).natAbs 1 := by
    apply roundMag_scale hG hf (by omega)
    simp only [Int.natAbs_mul, Int.natAbs_natCast]
    ring
  rw [hm]
  have hf' : (0 : Int) < F.one := by exact_mod_cast hf
  have hg' : (0 : Int) < G.one := by exact_mod_cast hg
  congr 1
  by_cases h0 : n = 0
  · subst h0
    simp [Flt.ofInt, Flt.ofUnits]
  · rw [if_neg (by simp [h0, hf.ne', hg.ne']), if_neg (by simp [h0, hg.ne'])]
    congr 1
    simp only [eq_iff_iff]
    constructor
    · intro h
      by_contra hc
      have : 0 ≤ n := by
        by_contra h'
        exact hc (mul_neg_of_neg_of_pos (by omega) hg')
      have := mul_nonneg (mul_nonneg this hf'.le) hg'.le
      omega
    · intro h
      have hn' : n < 0 := by
        by_contra h'
        have := mul_nonneg (show 0 ≤ n by omega) hg'.le
        omega
      exact mul_neg_of_neg_of_pos (mul_neg_of_neg_of_pos hn' hf') hg'

/-- A conversion to the same type changes nothing. -/
theorem convertNumber_same {p : Prim} {v : Bytes} (hv : v.length = p.size) : convertNumber p p v = v := by
  by_cases hp : p.isInt = true
  · obtain ⟨z, hz⟩ := holds_exists hp hv
    unfold convertNumber
    rw [holds_read hp hz, asNum_int hp]
    obtain ⟨h1, h2, h3⟩ := wrapInt_spec hp z
    have e := range_unique hp ⟨h1, h2⟩ hz.range h3
    rw [e]
    exact holds_bytes (holds_write hz.range) hz
  · have hp' : p = .f32 ∨ p = .f64 := by
      revert hp
      cases p <;> simp [Prim.isInt]
    rcases hp' with rfl | rfl
    · obtain ⟨x, hx⟩ := holdsF32_exists hv
      unfold convertNumber
      rw [holdsF32_read hx]
      have hw : HoldsF32 (writeNum .f32 (asNum .f32 (.single x))) x := holdsF32_write hx.range
      apply leNat_inj (by rw [hw.length, hx.length])
      rw [leNat_eq, leNat_eq, hx.bits]
      exact hw.bits
    · obtain ⟨x, hx⟩ := holdsF64_exists hv
      unfold convertNumber
      rw [holdsF64_read hx]
      have hw : HoldsF64 (writeNum .f64 (asNum .f64 (.double x))) x := holdsF64_write hx.range
      apply leNat_inj (by rw [hw.length, hx.length])
      rw [leNat_eq, leNat_eq, hx.bits]
      exact hw.bits

theorem asNum_int_of_range {q : Prim} (hq : q.isInt = true) {z : Int} (hz : q.lo ≤ z ∧ z ≤ q.hi) :
    asNum q (.int z) = .int z := by
  rw [asNum_int hq]
  obtain ⟨h1, h2, h3⟩ := wrapInt_spec hq z
  rw [range_unique hq ⟨h1, h2⟩ hz h3]

theorem within_range {p q : Prim} (h : fitsInto p q = true) {z : Int} (hz : p.lo ≤ z ∧ z ≤ p.hi) :
    q.isInt = true ∧ q.lo ≤ z ∧ z ≤ q.hi := by
  unfold fitsInto at h
  simp only [Bool.and_eq_true, decide_eq_true_eq] at h
  exact ⟨h.1.1.2, by omega⟩

theorem trunc_int (z : Int) : trunc (z : ℚ) = z := by
  have := trunc_div z (b := 1) (by omega)
  simpa using this

theorem asNum_single_int {r : Prim} (hr : r.isInt = true) (x : F32) : asNum r (.single x) = .int (x.toIntSat r.lo r.hi) := by
  cases r <;> first | rfl | exact absurd hr (by decide)

theorem asNum_double_int {r : Prim} (hr : r.isInt = true) (x : F64) : asNum r (.double x) = .int (x.toIntSat r.lo r.hi) := by
  cases r <;> first | rfl | exact absurd hr (by decide)

/-- Through an integer type that is not smaller than the last one. -/
theorem straight_bits {p q r : Prim} (hp : p.isInt = true) (hq : q.isInt = true) (hr : r.isInt = true)
    (h : r.size ≤ q.size) {v : Bytes} (hv : v.length = p.size) :
    convertNumber q r (convertNumber p q v) = convertNumber p r v := by
  obtain ⟨z, hz⟩ := holds_exists hp hv
  obtain ⟨a, w, h1, h2, h3⟩ := Props.C25_integers_wrap p q hp hq v (zeros q.size) z hz (by simp [zeros])
  obtain ⟨s, y, h4, h5, h6⟩ := Props.C25_integers_wrap q r hq hr a (zeros r.size) w h2 (by simp [zeros])
  obtain ⟨s', y', h7, h8, h9⟩ := Props.C25_integers_wrap p r hp hr v (zeros r.size) z hz (by simp [zeros])
  rw [run_scalar p q hv (by simp [zeros])] at h1
  cases h1
  rw [run_scalar q r (convertNumber_length _ _ _) (by simp [zeros])] at h4
  cases h4
  rw [run_scalar p r hv (by simp [zeros])] at h7
  cases h7
  have hd : (2 : Int) ^ (8 * r.size) ∣ 2 ^ (8 * q.size) := pow_dvd_pow _ (by omega)
  have h10 : w % 2 ^ (8 * r.size) = z % 2 ^ (8 * r.size) := by
    rw [← Int.emod_emod_of_dvd w hd, h3, Int.emod_emod_of_dvd z hd]
  have : y = y' := range_unique hr h5.range h8.range (h6.trans (h10.trans h9.symm))
  rw [this] at h5
  exact holds_bytes h5 h8

/-- Through an integer type with room for all values. -/
theorem straight_within {p q r : Prim} (hp : p.isInt = true) (h : fitsInto p q = true) {v : Bytes} (hv : v.length = p.size) :
    convertNumber q r (convertNumber p q v) = convertNumber p r v := by
  obtain ⟨z, hz⟩ := holds_exists hp hv
  obtain ⟨hq, hzq⟩ := within_range h hz.range
  unfold convertNumber
  rw [holds_read hp hz, asNum_int_of_range hq hzq, holds_read hq (holds_write hzq)]

/-- Small integers through `f64`. -/
theorem straight_double {p r : Prim} (hp : p.isInt = true) (hs : p.size ≤ 4) (h : r.isInt = false ∨ fitsInto p r = true)
    {v : Bytes} (hv : v.length = p.size) :
    convertNumber .f64 r (convertNumber p .f64 v) = convertNumber p r v := by
  obtain ⟨z, hz⟩ := holds_exists hp hv
  have hb : z.natAbs ≤ 2 ^ 53 := by
    have := hz.range
    revert this hs hp
    cases p <;> simp [Prim.lo, Prim.hi, Prim.size, Prim.isInt] <;> omega
  have hw : HoldsF64 (writeNum .f64 (asNum .f64 (.int z))) (Flt.ofInt .f64 z) :=
    holdsF64_write (lt_of_le_of_lt (Props.rounds_mag (Props.ofInt_rounds usable_f64 z)) (by decide))
  unfold convertNumber
  rw [holds_read hp hz, holdsF64_read hw]
  rcases h with h | h
  · have hr : r = .f32 ∨ r = .f64 := by
      revert h
      cases r <;> simp [Prim.isInt]
    rcases hr with rfl | rfl
    · show writeNum .f32 (.single ((Flt.ofInt .f64 z).cast .f32)) = writeNum .f32 (.single (Flt.ofInt .f32 z))
      rw [cast_ofInt usable_f64 usable_f32 (n := z) hb]
    · rfl
  · obtain ⟨hr, hzr⟩ := within_range h hz.range
    rw [asNum_int_of_range hr hzr, asNum_double_int hr]
    obtain ⟨h1, h2⟩ := ofInt_exact usable_f64 (n := z) hb
    rw [toIntSat_eq usable_f64 _ h1, Props.value_of_units usable_f64 h2, trunc_int]
    congr 2
    omega

/-- Smaller integers through `f32`. -/
theorem straight_single {p r : Prim} (hp : p.isInt = true) (hs : p.size ≤ 2) (h : r.isInt = false ∨ fitsInto p r = true)
    {v : Bytes} (hv : v.length = p.size) :
    convertNumber .f32 r (convertNumber p .f32 v) = convertNumber p r v := by
  obtain ⟨z, hz⟩ := holds_exists hp hv
  have hb : z.natAbs ≤ 2 ^ 24 := by
    have := hz.range
    revert this hs hp
    cases p <;> simp [Prim.lo, Prim.hi, Prim.size, Prim.isInt] <;> omega
  have hw : HoldsF32 (writeNum .f32 (asNum .f32 (.int z))) (Flt.ofInt .f32 z) :=
    holdsF32_write (lt_of_le_of_lt (Props.rounds_mag (Props.ofInt_rounds usable_f32 z)) (by decide))
  unfold convertNumber
  rw [holds_read hp hz, holdsF32_read hw]
  rcases h with h | h
  · have hr : r = .f32 ∨ r = .f64 := by
      revert h
      cases r <;> simp [Prim.isInt]
    rcases hr with rfl | rfl
    · rfl
    · show writeNum .f64 (.double ((Flt.ofInt .f32 z).cast .f64)) = writeNum .f64 (.double (Flt.ofInt .f64 z))
      rw [cast_ofInt usable_f32 usable_f64 (n := z) hb]
  · obtain ⟨hr, hzr⟩ := within_range h hz.range
    rw [asNum_int_of_range hr hzr, asNum_single_int hr]
    obtain ⟨h1, h2⟩ := ofInt_exact usable_f32 (n := z) hb
    rw [toIntSat_eq usable_f32 _ h1, Props.value_of_units usable_f32 h2, trunc_int]
    congr 2
    omega

/-- An `f32` through `f64`. -/
theorem straight_widened {r : Prim} {v : Bytes} (hv : v.length = 4)
    (hn : r = .f32 → ∀ x, HoldsF32 v x → x.isNaN = false) :
    convertNumber .f64 r (convertNumber .f32 .f64 v) = convertNumber .f32 r v := by
  by_cases hr : r.isInt = true
  swap
  · have hr' : r = .f32 ∨ r = .f64 := by
      revert hr
      cases r <;> simp [Prim.isInt]
    rcases hr' with rfl | rfl
    · rw [single_back hv (hn rfl), convertNumber_same hv]
    · exact convertNumber_same (convertNumber_length _ _ _)
  obtain ⟨x, hx⟩ := holdsF32_exists hv
  have key : (x.cast .f64).mag < 2 ^ 63 ∧ (x.cast .f64).toIntSat r.lo r.hi = x.toIntSat r.lo r.hi := by
    by_cases hf : x.isFinite = true
    · obtain ⟨h1, h2, _⟩ := cast_exact usable_f32 usable_f64 (by decide) (by decide) x hf
      refine ⟨lt_trans (of_decide_eq_true h1) (by decide), ?_⟩
      rw [toIntSat_eq usable_f64 _ h1, toIntSat_eq usable_f32 _ hf, h2]
    · cases hnan : x.isNaN with
      | true =>
        have e : x.cast .f64 = Flt.nan .f64 := by unfold Flt.cast; rw [hnan]; rfl
        rw [e]
        refine ⟨by decide +kernel, ?_⟩
        unfold Flt.toIntSat
        rw [hnan, show (Flt.nan .f64).isNaN = true by decide +kernel]
        rfl
      | false =>
        have hi : x.isInf = true := by
          have h1 := of_decide_eq_false (p := FloatFormat.f32.infMag < x.mag) hnan
          have h2 : ¬ x.mag < FloatFormat.f32.infMag := fun h => hf (decide_eq_true h)
          exact decide_eq_true (by omega)
        have e : x.cast .f64 = Flt.inf .f64 x.neg := by unfold Flt.cast; rw [hnan, hi]; rfl
        rw [e]
        refine ⟨?_, ?_⟩
        · cases x.neg <;> decide +kernel
        · unfold Flt.toIntSat
          rw [hnan, hi]
          have h1 : ∀ b, (Flt.inf .f64 b).isNaN = false := by intro b; cases b <;> decide +kernel
          have h2 : ∀ b, (Flt.inf .f64 b).isInf = true := by intro b; cases b <;> decide +kernel
          rw [h1, h2]
          rfl
  have hw : HoldsF64 (writeNum .f64 (asNum .f64 (.single x))) (x.cast .f64) := holdsF64_write key.1
  unfold convertNumber
  rw [holdsF32_read hx, holdsF64_read hw, asNum_double_int hr, asNum_single_int hr, key.2]

/-- The table is right. -/
theorem straight_number {p q r : Prim} (h : straight p q r = true) {v : Bytes} (hv : v.length = p.size)
    (hn : p = .f32 → q = .f64 → r = .f32 → ∀ x, HoldsF32 v x → x.isNaN = false) :
    convertNumber q r (convertNumber p q v) = convertNumber p r v := by
  unfold straight at h
  simp only [Bool.or_eq_true, Bool.and_eq_true, decide_eq_true_eq] at h
  rcases h with ((h | h) | ⟨rfl, rfl⟩) | ⟨hp, h⟩
  · subst h
    rw [convertNumber_same hv]
  · subst h
    rw [convertNumber_same (convertNumber_length _ _ _)]
  · exact straight_widened hv (hn rfl rfl)
  · by_cases hq : q.isInt = true
    · have h' : fitsInto p q = true ∨ (r.isInt = true ∧ r.size ≤ q.size) := by
        revert h hq
        cases q <;> simp [Prim.isInt]
      rcases h' with h' | ⟨hr, h'⟩
      · exact straight_within hp h' hv
      · exact straight_bits hp hq hr h' hv
    · have hq' : q = .f32 ∨ q = .f64 := by
        revert hq
        cases q <;> simp [Prim.isInt]
      rcases hq' with rfl | rfl
      · simp only [Bool.and_eq_true, Bool.or_eq_true, decide_eq_true_eq, Bool.not_eq_true'] at h
        exact straight_single hp h.1 h.2 hv
      · simp only [Bool.and_eq_true, Bool.or_eq_true, decide_eq_true_eq, Bool.not_eq_true'] at h
        exact straight_double hp h.1 h.2 hv

/-- Vectors. -/
theorem straight_vector {p q r : Prim} (h : straight p q r = true) {v : Bytes} (hv : v.length = 3 * p.size)
    (hn : p = .f32 → q = .f64 → r = .f32 → ∀ i < 3, ∀ x, HoldsF32 (window v (i * 4) 4) x → x.isNaN = false) :
    convertVector q r (convertVector p q v) = convertVector p r v := by
  have hl : ∀ i < 3, (window v (i * p.size) p.size).length = p.size := by
    intro i hi
    unfold window
    rw [List.length_take, List.length_drop, hv]
    have : (i + 1) * p.size ≤ 3 * p.size := Nat.mul_le_mul_right _ (by omega)
    rw [Nat.add_mul] at this
    omega
  have key : ∀ i < 3, convertNumber q r (convertNumber p q (window v (i * p.size) p.size)) =
      convertNumber p r (window v (i * p.size) p.size) := by
    intro i hi
    refine straight_number h (hl i hi) ?_
    rintro rfl hq hr
    exact hn rfl hq hr i hi
  have k0 := key 0 (by omega)
  have k1 := key 1 (by omega)
  have k2 := key 2 (by omega)
  rw [Nat.zero_mul] at k0
  rw [Nat.one_mul] at k1
  obtain ⟨w0, w1, w2⟩ := Las.window_three (convertNumber_length p q (window v 0 p.size)) (convertNumber_length p q (window v p.size p.size))
    (convertNumber_length p q (window v (2 * p.size) p.size))
  unfold convertVector
  rw [w0, w1, w2, k0, k1, k2]

theorem convertVector_same {p : Prim} {v : Bytes} (hv : v.length = 3 * p.size) : convertVector p p v = v := by
  have hl : ∀ i < 3, (window v (i * p.size) p.size).length = p.size := by
    intro i hi
    unfold window
    rw [List.length_take, List.length_drop, hv]
    have : (i + 1) * p.size ≤ 3 * p.size := Nat.mul_le_mul_right _ (by omega)
    rw [Nat.add_mul] at this
    omega
  have k0 := convertNumber_same (hl 0 (by omega))
  have k1 := convertNumber_same (hl 1 (by omega))
  have k2 := convertNumber_same (hl 2 (by omega))
  rw [Nat.zero_mul] at k0
  rw [Nat.one_mul] at k1
  unfold convertVector
  rw [k0, k1, k2]
  exact window_eq_three hv

theorem component_unique {a b : DataType} {p : Prim} (ha : componentType a = some p) (hb : componentType b = some p) : a = b := by
  revert ha hb
  cases a <;> cases b <;> simp [componentType] <;> rintro rfl <;> simp

theorem component_size {a : DataType} {p : Prim} (ha : componentType a = some p) : a.size = 3 * p.size := by
  revert ha
  cases a <;> simp [componentType] <;> rintro rfl <;> rfl

theorem scalar_bytes_size {a : DataType} {p : Prim} (ha : scalarType a = some p) : a.size = p.size := by
  rw [scalarType_some ha]
  cases p <;> rfl

theorem conversion_scalar {a b : DataType} {p q : Prim} (hab : a ≠ b) (hp : scalarType a = some p) (hq : scalarType b = some q) :
    conversion a b = some (convertNumber p q) := by simp [conversion, hab, hp, hq]

theorem conversion_vector {a b : DataType} {p q : Prim} (hab : a ≠ b) (hp : componentType a = some p)
    (hq : componentType b = some q) : conversion a b = some (convertVector p q) := by
  simp [conversion, hab, hp, hq, scalar_of_component hp, scalar_of_component hq]

theorem conversion_to_same (a : DataType) : conversion a a = some id := by simp [conversion]

/-- Attribute values. -/
theorem value_straight {a b c : DataType} (h : Straight a b c) {f g : Bytes → Bytes} (hf : conversion a b = some f)
    (hg : conversion b c = some g) :
    ∃ k, conversion a c = some k ∧
      ∀ v : Bytes, v.length = a.size → (b ≠ a → c = a → FreeOfNaN a v) → g (f v) = k v := by
  by_cases hab : a = b
  · subst hab
    rw [conversion_to_same] at hf
    cases hf
    exact ⟨g, hg, fun _ _ _ => rfl⟩
  by_cases hbc : b = c
  · subst hbc
    rw [conversion_to_same] at hg
    cases hg
    exact ⟨f, hf, fun _ _ _ => rfl⟩
  rcases h with h | h | ⟨p, q, r, hp, hq, hr, h⟩ | ⟨p, q, r, hp, hq, hr, h⟩
  · exact absurd h hab
  · exact absurd h hbc
  · rw [conversion_scalar hab hp hq] at hf
    rw [conversion_scalar hbc hq hr] at hg
    cases hf
    cases hg
    have main : ∀ v : Bytes, v.length = a.size → (b ≠ a → c = a → FreeOfNaN a v) →
        convertNumber q r (convertNumber p q v) = convertNumber p r v := by
      intro v hv hn
      refine straight_number h (hv.trans (scalar_bytes_size hp)) ?_
      rintro rfl rfl rfl
      exact (hn (Ne.symm hab) ((scalarType_some hr).trans (scalarType_some hp).symm)).1 hp
    by_cases hac : a = c
    · subst hac
      rw [hp] at hr
      cases hr
      refine ⟨id, conversion_to_same a, fun v hv hn => ?_⟩
      rw [main v hv hn, convertNumber_same (hv.trans (scalar_bytes_size hp))]
      rfl
    · exact ⟨_, conversion_scalar hac hp hr, main⟩
  · rw [conversion_vector hab hp hq] at hf
    rw [conversion_vector hbc hq hr] at hg
    cases hf
    cases hg
    have main : ∀ v : Bytes, v.length = a.size → (b ≠ a → c = a → FreeOfNaN a v) →
        convertVector q r (convertVector p q v) = convertVector p r v := by
      intro v hv hn
      refine straight_vector h (hv.trans (component_size hp)) ?_
      rintro rfl rfl rfl
      exact (hn (Ne.symm hab) (component_unique hr hp)).2 hp
    by_cases hac : a = c
    · subst hac
      rw [hp] at hr
      cases hr
      refine ⟨id, conversion_to_same a, fun v hv hn => ?_⟩
      rw [main v hv hn, convertVector_same (hv.trans (component_size hp))]
      rfl
    · exact ⟨_, conversion_vector hac hp hr, main⟩

/-- Zeros stay zeros. -/
theorem convertNumber_zeros (p q : Prim) : convertNumber p q (zeros p.size) = zeros q.size := by
  cases p <;> cases q <;> decide +kernel

theorem conversion_zeros {a b : DataType} {f : Bytes → Bytes} (hf : conversion a b = some f) :
    f (zeros a.size) = zeros b.size := by
  by_cases hab : a = b
  · subst hab
    rw [conversion_to_same] at hf
    cases hf
    rfl
  unfold conversion at hf
  rw [if_neg hab] at hf
  cases hp : scalarType a with
  | some p =>
    cases hq : scalarType b with
    | some q =>
      rw [hp, hq] at hf
      simp only [Option.some.injEq] at hf
      subst hf
      rw [scalar_bytes_size hp, scalar_bytes_size hq]
      exact convertNumber_zeros p q
    | none =>
      cases hc : componentType a with
      | none => rw [hp, hq, hc] at hf; simp at hf
      | some r => rw [scalar_of_component hc] at hp; cases hp
  | none =>
    cases hp' : componentType a with
    | none => rw [hp, hp'] at hf; simp at hf
    | some p =>
      cases hq' : componentType b with
      | none => rw [hp, hp', hq'] at hf; simp at hf
      | some q =>
        rw [hp, hp', hq'] at hf
        simp only [Option.some.injEq] at hf
        subst hf
        rw [component_size hp', component_size hq']
        have e : ∀ k, zeros (3 * k) = zeros k ++ zeros k ++ zeros k := by
          intro k
          unfold zeros
          rw [List.replicate_append_replicate, List.replicate_append_replicate]
          congr 1
          omega
        rw [e, e]
        have hz : (zeros p.size).length = p.size := by simp [zeros]
        obtain ⟨w0, w1, w2⟩ := Las.window_three hz hz hz
        unfold convertVector
        rw [w0, w1, w2, convertNumber_zeros]

/-! ## Points -/

theorem defaultPlan_of_name {l : PointLayout} (hl : Solid l) {m : Member} (hm : m ∈ l.attributes) {t : Member}
    (hn : t.name = m.name) :
    defaultPlan l t.definition = (conversion m.datatype t.datatype).map fun f => ⟨m.definition, f⟩ := by
  unfold defaultPlan
  rw [show t.definition.name = t.name from rfl, find_member hl hm hn.symm]
  rfl

theorem defaultPlan_unnamed {l : PointLayout} {t : Member} (h : ¬ named l t.name) : defaultPlan l t.definition = none := by
  unfold defaultPlan
  have : l.attributes.find? (fun m => m.name = t.definition.name) = none := by
    rw [List.find?_eq_none]
    intro m hm he
    exact h ⟨m, hm, of_decide_eq_true he⟩
  rw [this]

section
variable {l₁ l₂ l₃ : PointLayout} (s₁ : Solid l₁) (s₂ : Solid l₂) (s₃ : Solid l₃) (h : OnTheWay l₁ l₂ l₃)
  (h₁₂ : ∀ t ∈ l₂.attributes, named l₁ t.name → (defaultPlan l₁ t.definition).isSome)
  (h₂₃ : ∀ t ∈ l₃.attributes, named l₂ t.name → (defaultPlan l₂ t.definition).isSome)
include s₁ s₂ h h₁₂ h₂₃

theorem at_once_some : ∀ t ∈ l₃.attributes, named l₁ t.name → (defaultPlan l₁ t.definition).isSome := by
  rintro t ht ⟨m, hm, hn⟩
  obtain ⟨n, hn', hname, hst⟩ := h m hm t ht hn.symm
  have a := h₁₂ n hn' ⟨m, hm, hname.symm⟩
  have b := h₂₃ t ht ⟨n, hn', hname.trans hn⟩
  rw [defaultPlan_of_name s₁ hm hname, Option.isSome_map] at a
  rw [defaultPlan_of_name s₂ hn' (hn.symm.trans hname.symm), Option.isSome_map] at b
  obtain ⟨f, hf⟩ := Option.isSome_iff_exists.1 a
  obtain ⟨g, hg⟩ := Option.isSome_iff_exists.1 b
  obtain ⟨k, hk, _⟩ := value_straight hst hf hg
  rw [defaultPlan_of_name s₁ hm hn.symm, hk]
  rfl

theorem point_straight {r : Bytes} (hr : r.length = l₁.size) (hc : FreeOfDetours l₁ l₂ l₃ (pointOf l₁ r)) :
    (defaultPlan l₂).apply ((defaultPlan l₁).apply (pointOf l₁ r) (zeroPoint l₂)) (zeroPoint l₃) =
      (defaultPlan l₁).apply (pointOf l₁ r) (zeroPoint l₃) := by
  rw [show ∀ (plan : Plan) (s : Point), plan.apply s (zeroPoint l₃) = (zeroPoint l₃).map fun (d, old) =>
    (d, match plan d with | some r => (match s.get r.source with | some v => r.value v | none => old) | none => old) from
      fun _ _ => rfl,
    show ∀ (plan : Plan) (s : Point), plan.apply s (zeroPoint l₃) = (zeroPoint l₃).map fun (d, old) =>
    (d, match plan d with | some r => (match s.get r.source with | some v => r.value v | none => old) | none => old) from
      fun _ _ => rfl]
  unfold zeroPoint
  rw [List.map_map, List.map_map]
  apply List.map_congr_left
  intro t ht
  simp only [Function.comp_apply, Prod.mk.injEq, true_and]
  have hget : ∀ m ∈ l₁.attributes, Point.get (pointOf l₁ r) m.definition = some (window r m.offset m.size) := fun m hm =>
    Las.lookup_map_def (g := fun m => window r m.offset m.size) hm s₁.names
  have hz : ∀ n ∈ l₂.attributes,
      Point.get (l₂.attributes.map fun m => (m.definition, List.replicate m.size (0 : Byte))) n.definition =
      some (List.replicate n.size 0) := fun n hn =>
    Las.lookup_map_def (g := fun m => List.replicate m.size (0 : Byte)) hn s₂.names
  by_cases h1 : named l₁ t.name
  · obtain ⟨m, hm, hn⟩ := h1
    obtain ⟨n, hn', hname, hst⟩ := h m hm t ht hn.symm
    have a := h₁₂ n hn' ⟨m, hm, hname.symm⟩
    have b := h₂₃ t ht ⟨n, hn', hname.trans hn⟩
    have p1 := defaultPlan_of_name s₁ hm hname
    have p2 := defaultPlan_of_name s₂ hn' (hn.symm.trans hname.symm)
    rw [p1, Option.isSome_map] at a
    rw [p2, Option.isSome_map] at b
    obtain ⟨f, hf⟩ := Option.isSome_iff_exists.1 a
    obtain ⟨g, hg⟩ := Option.isSome_iff_exists.1 b
    obtain ⟨k, hk, hv⟩ := value_straight hst hf hg
    have p3 := defaultPlan_of_name s₁ hm hn.symm
    rw [hf] at p1
    rw [hg] at p2
    rw [hk] at p3
    have hmid := Props.apply_get (defaultPlan l₁) (pointOf l₁ r)
      (l₂.attributes.map fun m => (m.definition, List.replicate m.size (0 : Byte))) n.definition
    rw [hz n hn', p1] at hmid
    simp only [Option.map_some, hget m hm] at hmid
    simp only [p2, p3, Option.map_some, hmid, hget m hm]
    apply hv
    · unfold window
      rw [List.length_take, List.length_drop, hr]
      have := s₁.inside m hm
      have e : m.size = m.datatype.size := rfl
      omega
    · intro h4 h5
      exact hc m hm n hn' t ht hname hn.symm h4 h5 _ (hget m hm)
  · rw [defaultPlan_unnamed h1]
    by_cases h2 : named l₂ t.name
    · obtain ⟨n, hn', hn⟩ := h2
      have b := h₂₃ t ht ⟨n, hn', hn⟩
      have p2 := defaultPlan_of_name s₂ hn' hn.symm
      rw [p2, Option.isSome_map] at b
      obtain ⟨g, hg⟩ := Option.isSome_iff_exists.1 b
      rw [hg] at p2
      have p1 : defaultPlan l₁ n.definition = none := defaultPlan_unnamed (by rw [hn]; exact h1)
      have hmid := Props.apply_get (defaultPlan l₁) (pointOf l₁ r)
        (l₂.attributes.map fun m => (m.definition, List.replicate m.size (0 : Byte))) n.definition
      rw [hz n hn', p1] at hmid
      simp only [Option.map_some] at hmid
      simp only [p2, Option.map_some, hmid]
      exact conversion_zeros hg
    · rw [defaultPlan_unnamed h2]

end

/-! ## Detours -/

/-- Numbers that are changed by some detour. -/
def detours (p : Prim) : List Bytes :=
  match p with
  | .f32 => [0x3F000000, 0xBF800000, 0x4B800001, 0x5F000000, 0x7F7FFFFF, 0x43960000].map (natLE 4)
  | .f64 => [0x3FE0000000000000, 0x3FF0000000000001, 0xBFF0000000000000, 0x7FEFFFFFFFFFFFFF, 0x43E0000000000000,
      0x4072C00000000000, 0xFFEFFFFFFFFFFFFF, 0x40F0000000000000, 0x3FEFFFFFFFFFFFFF].map (natLE 8)
  | p => [-1, 200, 255, 2 ^ 16 - 1, 2 ^ 15, 2 ^ 31, 2 ^ 24 + 1, 2 ^ 53 + 1, 2 ^ 32 - 1, 2 ^ 8, 2 ^ 16, 2 ^ 32,
      -2 ^ (8 * p.size - 1), 2 ^ 62 + 2 ^ 38 + 1].map fun z => writeNum p (.int z)

theorem detour_number (p q r : Prim) (h : straight p q r = false) :
    ∃ v ∈ detours p, v.length = p.size ∧ convertNumber q r (convertNumber p q v) ≠ convertNumber p r v := by
  revert h
  cases p <;> cases q <;> cases r <;> decide +kernel

theorem detours_notNaN : ∀ v ∈ detours .f32, ∀ x, HoldsF32 v x → x.isNaN = false := by
  intro v hv
  apply notNaN_of_small
  revert v
  decide +kernel

/-- Attribute values. -/
theorem value_detour {a b c : DataType} (h : ¬ Straight a b c) {f g k : Bytes → Bytes} (hf : conversion a b = some f)
    (hg : conversion b c = some g) (hk : conversion a c = some k) :
    ∃ v, v.length = a.size ∧ FreeOfNaN a v ∧ g (f v) ≠ k v := by
  have hab : a ≠ b := fun e => h (.inl e)
  have hbc : b ≠ c := fun e => h (.inr (.inl e))
  have cases_of : ∀ {x y : DataType} {u : Bytes → Bytes}, x ≠ y → conversion x y = some u →
      (∃ p q, scalarType x = some p ∧ scalarType y = some q) ∨ ∃ p q, componentType x = some p ∧ componentType y = some q := by
    intro x y u hxy hu
    unfold conversion at hu
    rw [if_neg hxy] at hu
    cases hp : scalarType x with
    | some p =>
      cases hq : scalarType y with
      | some q => exact .inl ⟨p, q, rfl, rfl⟩
      | none =>
        cases hc : componentType x with
        | none => rw [hp, hq, hc] at hu; simp at hu
        | some r => rw [scalar_of_component hc] at hp; cases hp
    | none =>
      cases hp' : componentType x with
      | none => rw [hp, hp'] at hu; simp at hu
      | some p =>
        cases hq' : componentType y with
        | none => rw [hp, hp', hq'] at hu; simp at hu
        | some q => exact .inr ⟨p, q, rfl, rfl⟩
  rcases cases_of hab hf with ⟨p, q, hp, hq⟩ | ⟨p, q, hp, hq⟩
  · rcases cases_of hbc hg with ⟨q', r, hq', hr⟩ | ⟨q', r, hq', hr⟩
    swap
    · rw [scalar_of_component hq'] at hq; cases hq
    rw [hq] at hq'
    cases hq'
    have hs : straight p q r = false := by
      rw [Bool.eq_false_iff]
      exact fun hs => h (.inr (.inr (.inl ⟨p, q, r, hp, hq, hr, hs⟩)))
    obtain ⟨v, hv, hlen, hne⟩ := detour_number p q r hs
    rw [conversion_scalar hab hp hq] at hf
    rw [conversion_scalar hbc hq hr] at hg
    cases hf
    cases hg
    refine ⟨v, hlen.trans (scalar_bytes_size hp).symm, ⟨?_, ?_⟩, ?_⟩
    · intro he
      rw [hp] at he
      cases he
      exact detours_notNaN v hv
    · intro he
      rw [scalar_of_component he] at hp
      cases hp
    · by_cases hac : a = c
      · subst hac
        rw [hp] at hr
        cases hr
        rw [conversion_to_same] at hk
        cases hk
        rw [convertNumber_same hlen] at hne
        exact hne
      · rw [conversion_scalar hac hp hr] at hk
        cases hk
        exact hne
  · rcases cases_of hbc hg with ⟨q', r, hq', hr⟩ | ⟨q', r, hq', hr⟩
    · rw [scalar_of_component hq] at hq'; cases hq'
    rw [hq] at hq'
    cases hq'
    have hs : straight p q r = false := by
      rw [Bool.eq_false_iff]
      exact fun hs => h (.inr (.inr (.inr ⟨p, q, r, hp, hq, hr, hs⟩)))
    obtain ⟨v, hv, hlen, hne⟩ := detour_number p q r hs
    rw [conversion_vector hab hp hq] at hf
    rw [conversion_vector hbc hq hr] at hg
    cases hf
    cases hg
    have hz : (zeros p.size).length = p.size := by simp [zeros]
    have hlen' : (v ++ zeros p.size ++ zeros p.size).length = 3 * p.size := by
      rw [List.length_append, List.length_append, hlen, hz]
      omega
    obtain ⟨w0, w1, w2⟩ := Las.window_three hlen hz hz
    have hne' : convertVector q r (convertVector p q (v ++ zeros p.size ++ zeros p.size)) ≠
        convertVector p r (v ++ zeros p.size ++ zeros p.size) := by
      intro he
      apply hne
      unfold convertVector at he
      rw [w0, w1, w2] at he
      obtain ⟨u0, u1, u2⟩ := Las.window_three (convertNumber_length p q v) (convertNumber_length p q (zeros p.size))
        (convertNumber_length p q (zeros p.size))
      rw [u0, u1, u2] at he
      have := congrArg (List.take r.size) he
      rwa [List.append_assoc, List.append_assoc, List.take_left' (convertNumber_length _ _ _),
        List.take_left' (convertNumber_length _ _ _)] at this
    refine ⟨v ++ zeros p.size ++ zeros p.size, hlen'.trans (component_size hp).symm, ⟨?_, ?_⟩, ?_⟩
    · intro he
      rw [scalar_of_component hp] at he
      cases he
    · intro he i hi
      rw [hp] at he
      cases he
      have e : Prim.f32.size = 4 := rfl
      rw [e] at w0 w1 w2 ⊢
      have : i = 0 ∨ i = 1 ∨ i = 2 := by omega
      rcases this with rfl | rfl | rfl
      · rw [w0]
        exact detours_notNaN v hv
      · rw [show 1 * 4 = 4 from rfl, w1]
        exact notNaN_of_small (by rw [littleEndian_zeros]; omega)
      · rw [w2]
        exact notNaN_of_small (by rw [littleEndian_zeros]; omega)
    · by_cases hac : a = c
      · subst hac
        rw [hp] at hr
        cases hr
        rw [conversion_to_same] at hk
        cases hk
        rw [convertVector_same hlen'] at hne'
        exact hne'
      · rw [conversion_vector hac hp hr] at hk
        cases hk
        exact hne'

/-- Points. -/
theorem point_bent {l₁ l₂ l₃ : PointLayout} (s₁ : Solid l₁) (s₂ : Solid l₂) (s₃ : Solid l₃) {m n t : Member}
    (hm : m ∈ l₁.attributes) (hn : n ∈ l₂.attributes) (ht : t ∈ l₃.attributes) (hnm : n.name = m.name) (htm : t.name = m.name)
    (h : ¬ Straight m.datatype n.datatype t.datatype)
    (h₁₂ : (defaultPlan l₁ n.definition).isSome) (h₂₃ : (defaultPlan l₂ t.definition).isSome)
    (h₁₃ : (defaultPlan l₁ t.definition).isSome) :
    ∃ r, r.length = l₁.size ∧ FreeOfDetours l₁ l₂ l₃ (pointOf l₁ r) ∧
      (defaultPlan l₂).apply ((defaultPlan l₁).apply (pointOf l₁ r) (zeroPoint l₂)) (zeroPoint l₃) ≠
        (defaultPlan l₁).apply (pointOf l₁ r) (zeroPoint l₃) := by
  have p1 := defaultPlan_of_name s₁ hm hnm
  have p2 := defaultPlan_of_name s₂ hn (htm.trans hnm.symm)
  have p3 := defaultPlan_of_name s₁ hm htm
  rw [p1, Option.isSome_map] at h₁₂
  rw [p2, Option.isSome_map] at h₂₃
  rw [p3, Option.isSome_map] at h₁₃
  obtain ⟨f, hf⟩ := Option.isSome_iff_exists.1 h₁₂
  obtain ⟨g, hg⟩ := Option.isSome_iff_exists.1 h₂₃
  obtain ⟨k, hk⟩ := Option.isSome_iff_exists.1 h₁₃
  rw [hf] at p1
  rw [hg] at p2
  rw [hk] at p3
  obtain ⟨v, hv, hfree, hlost⟩ := value_detour h hf hg hk
  have hv' : v.length = m.size := hv
  have hget : ∀ n ∈ l₁.attributes, Point.get (pointOf l₁ (recordWith l₁ m v)) n.definition =
      some (window (recordWith l₁ m v) n.offset n.size) := fun n hn =>
    Las.lookup_map_def (g := fun n => window (recordWith l₁ m v) n.offset n.size) hn s₁.names
  refine ⟨recordWith l₁ m v, recordWith_length s₁ hm hv', ?_, ?_⟩
  · intro m' hm' _ _ _ _ _ _ _ _ w hw
    rw [hget m' hm'] at hw
    cases hw
    by_cases he : m' = m
    · subst he
      rw [recordWith_same hv']
      exact hfree
    · obtain ⟨j, hj⟩ := recordWith_other (l := l₁) hv' (members_apart s₁ hm hm' he)
      rw [hj]
      exact zeros_free _ _
  · intro he
    apply hlost
    have hz : Point.get (zeroPoint l₂) n.definition = some (List.replicate n.size 0) :=
      Las.lookup_map_def (g := fun m => List.replicate m.size (0 : Byte)) hn s₂.names
    have hz' : Point.get (zeroPoint l₃) t.definition = some (List.replicate t.size 0) :=
      Las.lookup_map_def (g := fun m => List.replicate m.size (0 : Byte)) ht s₃.names
    have hmid := Props.apply_get (defaultPlan l₁) (pointOf l₁ (recordWith l₁ m v)) (zeroPoint l₂) n.definition
    rw [hz, p1] at hmid
    simp only [Option.map_some, hget m hm, recordWith_same hv'] at hmid
    have hend := Props.apply_get (defaultPlan l₂) ((defaultPlan l₁).apply (pointOf l₁ (recordWith l₁ m v)) (zeroPoint l₂))
      (zeroPoint l₃) t.definition
    rw [hz', p2] at hend
    simp only [Option.map_some, hmid] at hend
    have honce := Props.apply_get (defaultPlan l₁) (pointOf l₁ (recordWith l₁ m v)) (zeroPoint l₃) t.definition
    rw [hz', p3] at honce
    simp only [Option.map_some, hget m hm, recordWith_same hv'] at honce
    rw [he, honce] at hend
    exact (Option.some.inj hend).symm

end Pasture
