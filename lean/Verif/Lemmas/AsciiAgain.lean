import Verif.Lemmas.AsciiRoundTrip
import Mathlib.Tactic.Linarith
import Mathlib.Tactic.NormNum

/-!
# Printing a float that was parsed from a printed text
-/

namespace Pasture.Ascii

open Spec Spec.Ascii

/-- A quotient is rounded to an integer at most half a unit away, and to an even one if it lies in the middle. -/
theorem roundDiv_near {a b n : Nat} (h : roundDiv a b = n) (hb : 0 < b) :
    2 * ((a : Int) - n * b).natAbs ≤ b ∧ (2 * ((a : Int) - n * b).natAbs = b → n % 2 = 0) := by
  have hm := Nat.div_add_mod' a b
  have hlt := Nat.mod_lt a hb
  rcases roundDiv_cases (a := a) (b := b) with ⟨h1, h2, h3⟩ | ⟨h1, h2, h3⟩
  · rw [h] at h1
    subst h1
    have e : ((a : Int) - ((a / b : Nat) : Int) * b) = ((a % b : Nat) : Int) := by
      have : (a : Int) = ((a / b : Nat) : Int) * b + ((a % b : Nat) : Int) := by exact_mod_cast hm.symm
      omega
    rw [e, Int.natAbs_natCast]
    exact ⟨h2, h3⟩
  · rw [h] at h1
    subst h1
    have e : ((a : Int) - ((a / b + 1 : Nat) : Int) * b) = ((a % b : Nat) : Int) - b := by
      have : (a : Int) = ((a / b : Nat) : Int) * b + ((a % b : Nat) : Int) := by exact_mod_cast hm.symm
      rw [Nat.cast_add, add_mul, Nat.cast_one, one_mul]
      omega
    rw [e]
    refine ⟨by omega, fun h4 => h3 (by omega)⟩

/-- This determines the integer. -/
theorem roundDiv_of_near {a b n : Nat} (hb : 0 < b) (h : 2 * ((a : Int) - n * b).natAbs ≤ b)
    (he : 2 * ((a : Int) - n * b).natAbs = b → n % 2 = 0) : roundDiv a b = n := by
  obtain ⟨h1, h2⟩ := roundDiv_near (rfl : roundDiv a b = roundDiv a b) hb
  generalize roundDiv a b = m at *
  by_contra hne
  have key : ∀ {m n : Nat}, m < n → 2 * ((a : Int) - n * b).natAbs ≤ b → 2 * ((a : Int) - m * b).natAbs ≤ b →
      n = m + 1 ∧ 2 * ((a : Int) - n * b).natAbs = b ∧ 2 * ((a : Int) - m * b).natAbs = b := by
    intro m n hlt h h1
    obtain ⟨k, rfl⟩ := Nat.exists_eq_add_of_lt hlt
    have e : ((m + k + 1 : Nat) : Int) * b = m * b + k * b + b := by push_cast; ring
    rw [e] at h ⊢
    have hk : (0 : Int) ≤ (k : Int) * b := by positivity
    have hk0 : (k : Int) * b = 0 := by omega
    have : k = 0 := by
      have hb' : (b : Int) ≠ 0 := by omega
      have := (mul_eq_zero.1 hk0).resolve_right hb'
      omega
    subst this
    refine ⟨rfl, by omega, by omega⟩
  rcases Nat.lt_or_gt_of_ne hne with hlt | hlt
  · obtain ⟨k1, k2, k3⟩ := key hlt h h1
    have := he k2
    have := h2 k3
    omega
  · obtain ⟨k1, k2, k3⟩ := key hlt h1 h
    have := he k3
    have := h2 k2
    omega

/-- The text of a finite float is parsed digit by digit. -/
theorem parse_digits (neg : Bool) {int frac : List Char} (h1 : IsDigits int) (h2 : int ≠ []) (h3 : IsDigits frac) :
    parseF64 ((if neg then ['-'] else []) ++ int ++ '.' :: frac) =
      some (decimalToF64 neg (digitsNumber (int ++ frac)) (0 - frac.length)) := by
  cases int with
  | nil => exact absurd rfl h2
  | cons a int =>
    have ha := (isDigits_cons.1 h1).1
    have hr := (digit_range a).1 ha
    have hsplit : splitSign ((if neg then ['-'] else []) ++ (a :: int) ++ '.' :: frac) =
        (neg, (a :: int) ++ '.' :: frac) := by
      apply splitSign_unique
      cases neg
      · refine .inr (.inr ⟨rfl, rfl, ?_, ?_⟩)
        · intro h
          have : a = '-' := Option.some.inj h
          subst this
          rw [minus_nat] at hr; omega
        · intro h
          have : a = '+' := Option.some.inj h
          subst this
          rw [plus_nat] at hr; omega
      · exact .inl ⟨rfl, rfl⟩
    have hlead : leadingDigits ((a :: int) ++ '.' :: frac) = (a :: int, '.' :: frac) :=
      leadingDigits_append h1 (by
        intro c hc h
        have : c = '.' := (Option.some.inj hc).symm
        subst this
        have := (digit_range '.').1 h
        rw [point_nat] at this
        omega)
    have hfrac : fraction ('.' :: frac) = (frac, []) := by
      have := leadingDigits_append (ds := frac) (rest := []) h3 (by simp)
      rw [List.append_nil] at this
      exact this
    have hdec := parseDecimal_parts (neg := neg) hlead hfrac
    rw [if_neg (by simp)] at hdec
    have hexp : parseExponent [] = some 0 := rfl
    rw [hexp, Option.map_some, digitsValue_eq (isDigits_append.2 ⟨h1, h3⟩)] at hdec
    unfold parseF64
    rw [hsplit]
    dsimp only
    rw [if_neg, if_neg, hdec]
    · rintro (h | h)
      · exact not_word (.inl ha) (by decide) h
      · exact not_word (.inl ha) (by decide) h
    · exact not_word (.inl ha) (by decide)

/-- What is parsed is the float nearest to the decimal number that was printed. -/
theorem parse_printed (precision : Nat) (hp : 1 ≤ precision) {x : F64} (hx : x.isFinite = true) :
    ∃ y, parseF64 (trimZeros (fixedText precision x)) = some y ∧ y.neg = x.neg ∧
      RoundsTo (if x.neg then
        -((roundDiv (FloatFormat.f64.units x.mag * 10 ^ precision) FloatFormat.f64.one : ℚ) / 10 ^ precision)
        else (roundDiv (FloatFormat.f64.units x.mag * 10 ^ precision) FloatFormat.f64.one : ℚ) / 10 ^ precision) y := by
  obtain ⟨c1, c2⟩ := Flt.finite_cases hx
  unfold fixedText
  rw [if_neg (by rw [c1]; decide)]
  dsimp only
  rw [if_neg (by rw [c2]; decide), if_neg (show ¬ precision = 0 by omega)]
  generalize roundDiv (FloatFormat.f64.units x.mag * 10 ^ precision) FloatFormat.f64.one = n
  obtain ⟨i1, i2, i3, -⟩ := natText_spec (n / 10 ^ precision)
  have f1 := fixedDigits_length precision (n % 10 ^ precision)
  have f2 := fixedDigits_digits precision (n % 10 ^ precision)
  have f3 := fixedDigits_number precision (n % 10 ^ precision)
  rw [Nat.mod_mod] at f3
  generalize natText (n / 10 ^ precision) = int at *
  generalize fixedDigits precision (n % 10 ^ precision) = frac at *
  have fne : frac ≠ [] := by rintro rfl; simp at f1; omega
  obtain ⟨k, frac', t1, t2, t3, t4⟩ := trimZeros_point ((if x.neg then ['-'] else []) ++ int) frac fne f2
  have hnum : digitsNumber (int ++ frac) = n := by
    rw [digitsNumber_append, i3, f1, f3, Nat.div_add_mod']
  have f2' : IsDigits frac' := by rw [t2] at f2; exact (isDigits_append.1 f2).1
  rw [t1, parse_digits x.neg i2 i1 f2']
  obtain ⟨hround, hneg⟩ := decimalToF64_rounds x.neg (digitsNumber (int ++ frac')) (0 - frac'.length)
  refine ⟨_, rfl, hneg, ?_⟩
  have e : (digitsNumber (int ++ frac') : ℚ) * (10 : ℚ) ^ ((0 : Int) - frac'.length) = (n : ℚ) / 10 ^ precision := by
    rw [zero_sub, zpow_neg, zpow_natCast, ← div_eq_mul_inv, ← trimmed_number int frac' k, ← t2, hnum, f1]
  rw [e] at hround
  exact hround

/-- The value of a float from its sign and its units. -/
theorem value_signed (x : F64) : value x =
    if x.neg then -((FloatFormat.f64.units x.mag : ℚ) / FloatFormat.f64.one)
    else (FloatFormat.f64.units x.mag : ℚ) / FloatFormat.f64.one := by
  rw [value_eq usable_f64]
  unfold Flt.sunits
  split <;> push_cast <;> ring

/-- There is room for the units of 1 above the largest finite float. -/
theorem room_above : FloatFormat.f64.units (FloatFormat.f64.infMag - 1) + FloatFormat.f64.one <
    FloatFormat.f64.units FloatFormat.f64.infMag := by
  decide +kernel

/-- The decimal number next to a finite float does not overflow. -/
theorem printed_finite (P n u : Nat) (hP : 0 < P) (hu : u ≤ FloatFormat.f64.units (FloatFormat.f64.infMag - 1))
    (h : 2 * (((u * P : Nat) : Int) - n * FloatFormat.f64.one).natAbs ≤ FloatFormat.f64.one) :
    (n : ℚ) / P < overflowThreshold .f64 := by
  have ho : (0 : ℚ) < FloatFormat.f64.one := by exact_mod_cast FloatFormat.one_pos
  have hP' : (0 : ℚ) < P := by exact_mod_cast hP
  have ht := threshold_units usable_f64
  have hr := room_above
  generalize FloatFormat.f64.one = o at *
  generalize FloatFormat.f64.units (FloatFormat.f64.infMag - 1) = a at *
  generalize FloatFormat.f64.units FloatFormat.f64.infMag = b at *
  generalize overflowThreshold .f64 = t at *
  have h1 : 2 * (n * o) ≤ 2 * (u * P) + o := by
    have : (2 * (n * o) : Int) ≤ 2 * ((u * P : Nat) : Int) + o := by omega
    exact_mod_cast this
  have h2 : 2 * (n * o) < (a + b) * P := by
    have h3 : u * P ≤ a * P := Nat.mul_le_mul_right _ hu
    have h4 : (a + o) * P < b * P := Nat.mul_lt_mul_of_pos_right hr hP
    have h5 : o ≤ o * P := Nat.le_mul_of_pos_right _ hP
    rw [Nat.add_mul] at h4 ⊢
    omega
  have h2' : 2 * ((n : ℚ) * o) < (a + b) * P := by exact_mod_cast h2
  rw [← ht] at h2'
  rw [div_lt_iff₀ hP']
  nlinarith

theorem scaled_distance (P n u o : Nat) (hP : 0 < P) (ho : 0 < o) :
    |(n : ℚ) / P - (u : ℚ) / o| = ((((u * P : Nat) : Int) - n * o).natAbs : ℚ) / (P * o) := by
  have hP' : (0 : ℚ) < P := by exact_mod_cast hP
  have ho' : (0 : ℚ) < o := by exact_mod_cast ho
  have e : (n : ℚ) / P - (u : ℚ) / o = -(((((u * P : Nat) : Int) - n * o : Int) : ℚ) / (P * o)) := by
    push_cast
    field_simp
    ring
  rw [e, abs_neg, abs_div, abs_of_pos (mul_pos hP' ho'), Nat.cast_natAbs, Int.cast_abs]

/-- **The text of a float that was parsed from a printed text is that text.** -/
theorem printed_again (precision : Nat) (hp : 1 ≤ precision) (x : F64) :
    ∃ y, parseF64 (trimZeros (fixedText precision x)) = some y ∧ fixedText precision y = fixedText precision x := by
  by_cases hx : x.isFinite = true
  · obtain ⟨y, h1, h2, h3⟩ := parse_printed precision hp hx
    refine ⟨y, h1, ?_⟩
    obtain ⟨n, hn⟩ : ∃ n, roundDiv (FloatFormat.f64.units x.mag * 10 ^ precision) FloatFormat.f64.one = n := ⟨_, rfl⟩
    rw [hn] at h3
    obtain ⟨k1, k2⟩ := roundDiv_near hn FloatFormat.one_pos
    have hP : 0 < 10 ^ precision := Nat.pow_pos (by omega)
    have hmag : x.mag < FloatFormat.f64.infMag := of_decide_eq_true hx
    have hlt := printed_finite (10 ^ precision) n (FloatFormat.f64.units x.mag) hP
      (FloatFormat.f64.units_strictMono.monotone (Nat.le_pred_of_lt hmag)) k1
    push_cast at hlt
    have hq0 : (0 : ℚ) ≤ (n : ℚ) / 10 ^ precision := div_nonneg (Nat.cast_nonneg _) (pow_nonneg (by norm_num) _)
    have hinf : y.isInf = false := by
      by_contra hc
      have := h3.overflow.1 (by simpa using hc)
      have habs : |(if x.neg then -((n : ℚ) / 10 ^ precision) else (n : ℚ) / 10 ^ precision)| = (n : ℚ) / 10 ^ precision := by
        split
        · rw [abs_neg, abs_of_nonneg hq0]
        · rw [abs_of_nonneg hq0]
      rw [habs] at this
      linarith
    have hnan := h3.not_nan
    have hy : y.isFinite = true := by
      have a1 : ¬ FloatFormat.f64.infMag < y.mag := of_decide_eq_false hnan
      have a2 : ¬ y.mag = FloatFormat.f64.infMag := of_decide_eq_false hinf
      exact decide_eq_true (by omega)
    have hnear := h3.nearest hy x hx
    rw [value_signed x, value_signed y, h2] at hnear
    have hnear' : |(n : ℚ) / ((10 ^ precision : Nat) : ℚ) - (FloatFormat.f64.units y.mag : ℚ) / FloatFormat.f64.one| ≤
        |(n : ℚ) / ((10 ^ precision : Nat) : ℚ) - (FloatFormat.f64.units x.mag : ℚ) / FloatFormat.f64.one| := by
      push_cast
      cases hneg : x.neg with
      | false => simpa [hneg] using hnear
      | true =>
        simp only [hneg, if_true] at hnear
        rw [neg_sub_neg, neg_sub_neg, abs_sub_comm, abs_sub_comm (_ / (FloatFormat.f64.one : ℚ))] at hnear
        exact hnear
    rw [scaled_distance _ _ _ _ hP FloatFormat.one_pos, scaled_distance _ _ _ _ hP FloatFormat.one_pos] at hnear'
    have hpos : (0 : ℚ) < ((10 ^ precision : Nat) : ℚ) * FloatFormat.f64.one :=
      mul_pos (Nat.cast_pos.2 hP) (Nat.cast_pos.2 FloatFormat.one_pos)
    rw [div_le_div_iff_of_pos_right hpos] at hnear'
    have hle : (((FloatFormat.f64.units y.mag * 10 ^ precision : Nat) : Int) - n * FloatFormat.f64.one).natAbs ≤
        (((FloatFormat.f64.units x.mag * 10 ^ precision : Nat) : Int) - n * FloatFormat.f64.one).natAbs := by
      exact_mod_cast hnear'
    have hagain : roundDiv (FloatFormat.f64.units y.mag * 10 ^ precision) FloatFormat.f64.one = n :=
      roundDiv_of_near FloatFormat.one_pos (le_trans (Nat.mul_le_mul_left 2 hle) k1)
        (fun h => k2 (le_antisymm k1 (h.symm.le.trans (Nat.mul_le_mul_left 2 hle))))
    obtain ⟨c1, c2⟩ := Flt.finite_cases hx
    unfold fixedText
    dsimp only
    rw [hnan, hinf, c1, c2, h2, hn, hagain]
  · obtain ⟨y, h1, -, -, h3, h4⟩ := parse_plainFloat (fixedText_plain precision hp x)
    refine ⟨y, h1, ?_⟩
    by_cases hi : x.isInf = true
    · rw [h3 hi]
    · have hn : x.isNaN = true := by
        have a1 : ¬ x.mag < FloatFormat.f64.infMag := fun h => hx (decide_eq_true h)
        have a2 : ¬ x.mag = FloatFormat.f64.infMag := fun h => hi (decide_eq_true h)
        exact decide_eq_true (by omega)
      unfold fixedText
      rw [if_pos hn, if_pos (h4 hn)]

/-! ## Columns and lines -/

/-- What is read for the text of a column is written as that text. -/
theorem value_again {c : Column} (hc : IsColumn c) {precision : Nat} (hp : 1 ≤ precision) {b : Bytes}
    (hb : b.length = c.type.size) : ∃ n, valueOf c (numText precision c b) = .ok n ∧
      numText precision c (writeNum c.type n) = numText precision c b := by
  rcases hc.types with ht | ht
  · have hfl := hc.float ht
    unfold valueOf numText
    rw [ht] at hb ⊢
    obtain ⟨x, hx⟩ := holdsF64_exists hb
    rw [holdsF64_read hx]
    dsimp only
    obtain ⟨y, h1, h2, -⟩ := parse_plainFloat (fixedText_plain precision hp x)
    obtain ⟨y', h1', h2'⟩ := printed_again precision hp x
    rw [h1] at h1'
    cases h1'
    refine ⟨.double y, ?_, ?_⟩
    · rw [parseString_f64, h1, hfl]
      rfl
    · rw [holdsF64_read (holdsF64_write h2)]
      dsimp only
      rw [h2']
  · obtain ⟨n, h1, h2⟩ := writes_value hc hb (numText_writes hc hp b)
    refine ⟨n, h1, ?_⟩
    obtain ⟨z, hz⟩ := holds_exists ht hb
    rw [holds_read ht hz] at h2
    dsimp only at h2
    by_cases hf : c.flag = true
    · rw [if_pos hf] at h2
      unfold numText
      rw [h2, holds_read ht hz]
      dsimp only
      rw [if_pos hf, if_pos hf]
      by_cases h0 : z = 0
      · simp [h0]
      · simp [h0]
    · rw [if_neg hf] at h2
      rw [h2]

theorem writtenAs_of_column (t₀ : PointDataType) {t : PointDataType} {c : Column} (h₀ : columnOf (writtenAs t₀) = some c)
    (h : columnOf t = some c) : writtenAs t = t := by
  have h1 : columnOf (writtenAs t₀) ≠ columnOf .classification := by
    cases t₀ <;> exact fun h => absurd (congrArg (Option.map Column.attr) h) (by decide)
  have h2 : columnOf (writtenAs t₀) ≠ columnOf .userData := by
    cases t₀ <;> exact fun h => absurd (congrArg (Option.map Column.attr) h) (by decide)
  cases t <;> first
    | rfl
    | exact absurd (h₀.trans h.symm) h1
    | exact absurd (h₀.trans h.symm) h2

/-- The text for a literal can be read as a value of this literal. -/
theorem good_again {w : RawAsciiWriter} (hp : 1 ≤ w.precision) {p : Point}
    (hs : ∀ d v, p.get d = some v → v.length = d.size) {cols : List (List Char)}
    (h : w.parseLayout.mapM (pointText w.precision p) = .ok cols) {cols' : List (List Char)}
    (hc : ∀ i : Nat, i < cols.length → cols'[i]? = cols[i]?) (hlen : cols.length ≤ cols'.length) :
    Good (w.parseLayout.map columnOf) cols' := by
  obtain ⟨h1, h2⟩ := mapM_ok_getElem h
  refine ⟨by simp; omega, fun i c s hi hsi => ?_⟩
  rw [List.getElem?_map] at hi
  cases ht : w.parseLayout[i]? with
  | none => rw [ht] at hi; cases hi
  | some t =>
    rw [ht] at hi
    have hct : columnOf t = some c := Option.some.inj hi
    obtain ⟨s', h3, h4⟩ := h2 i t ht
    rw [hc i (List.getElem?_eq_some_iff.1 h3).1, h3] at hsi
    cases hsi
    obtain ⟨c', hc', htype, hflag⟩ : ∃ c', columnOf (writtenAs t) = some c' ∧ c'.type = c.type ∧ c'.flag = c.flag := by
      cases t <;> cases hct <;> exact ⟨_, rfl, rfl, rfl⟩
    unfold pointText at h4
    rw [hc'] at h4
    dsimp only at h4
    cases hg : p.get c'.attr with
    | none => rw [hg] at h4; cases h4
    | some v =>
      rw [hg] at h4
      cases h4
      obtain ⟨n, hn, -⟩ := value_again ⟨_, hc'⟩ hp (part_length ⟨_, hc'⟩ (hs _ _ hg))
      refine ⟨n, ?_⟩
      unfold valueOf at hn ⊢
      rwa [← htype, ← hflag]

/-- A point that is read from a line is written as that line. -/
theorem text_again {w : RawAsciiWriter} (hf : Closed w.parseLayout) (hp : 1 ≤ w.precision) {p : Point}
    (hs : ∀ d v, p.get d = some v → v.length = d.size) {cols : List (List Char)}
    (h : w.parseLayout.mapM (pointText w.precision p) = .ok cols) {cols' : List (List Char)}
    (hc : ∀ i : Nat, i < cols.length → cols'[i]? = cols[i]?) {l : PointLayout} {r : Bytes}
    (hattr : ∀ c, some c ∈ w.parseLayout.map columnOf → c.attr ∈ l.attributes.map Member.definition)
    (hr : LineRecord l w.parseLayout cols' r) :
    ∀ t ∈ w.parseLayout, pointText w.precision (pointOf l r) t = pointText w.precision p t := by
  obtain ⟨h1, h2⟩ := mapM_ok_getElem h
  intro t ht
  unfold pointText
  cases hct : columnOf (writtenAs t) with
  | none => rfl
  | some c =>
    dsimp only
    have hcolumn : ∀ (i : Nat) c, (w.parseLayout.map columnOf)[i]? = some (some c) →
        ∃ t', w.parseLayout[i]? = some t' ∧ columnOf t' = some c := by
      intro i c hi
      rw [List.getElem?_map] at hi
      cases ht : w.parseLayout[i]? with
      | none => rw [ht] at hi; cases hi
      | some t => rw [ht] at hi; exact ⟨t, rfl, Option.some.inj hi⟩
    have htext : ∀ (i : Nat), (w.parseLayout.map columnOf)[i]? = some (some c) → ∃ v, p.get c.attr = some v ∧
        cols'[i]? = some (numText w.precision c (c.part v)) := by
      intro i hi
      obtain ⟨t', ht', hct'⟩ := hcolumn i c hi
      obtain ⟨s, h3, h4⟩ := h2 i t' ht'
      have := pointText_column (writtenAs_of_column t hct hct') h4
      rw [hct'] at this
      obtain ⟨v, h5, h6⟩ := this
      refine ⟨v, h5, ?_⟩
      rw [hc i (List.getElem?_eq_some_iff.1 h3).1, h3, h6]
    have hcol : IsColumn c := ⟨_, hct⟩
    have hmem : some c ∈ w.parseLayout.map columnOf := hct ▸ List.mem_map_of_mem (hf t ht)
    obtain ⟨i, hi⟩ := List.getElem?_of_mem hmem
    obtain ⟨v, hv, -⟩ := htext i hi
    obtain ⟨j, hj, -, hlast⟩ := last_index (fun j => (w.parseLayout.map columnOf)[j]? = some (some c))
      (w.parseLayout.map columnOf).length (fun j hj => (List.getElem?_eq_some_iff.1 hj).1) _ i (Nat.le_refl _) hi
    obtain ⟨v', hv', hs'⟩ := htext j hj
    rw [hv] at hv'
    cases hv'
    obtain ⟨m, hm, hmd⟩ := List.mem_map.1 (hattr c hmem)
    have hfind : ∃ m', l.attributes.find? (fun m => m.definition = c.attr) = some m' := by
      cases hfi : l.attributes.find? (fun m => m.definition = c.attr) with
      | some m' => exact ⟨m', rfl⟩
      | none =>
        have := List.find?_eq_none.1 hfi m hm
        simp [hmd] at this
    obtain ⟨m', hm'⟩ := hfind
    obtain ⟨hmm', hmd'⟩ := find_def_some hm'
    obtain ⟨n, h7, h8⟩ := hr.2.1 j c (numText w.precision c (c.part v)) m'
      (by rw [List.getElem?_zip_eq_some]; exact ⟨hj, hs'⟩) hmm' hmd' (by
        intro k c'' s'' hk hk' hsame
        rw [List.getElem?_zip_eq_some] at hk'
        obtain ⟨t'', -, hct''⟩ := hcolumn k c'' hk'.1
        obtain rfl := hcol.eq_of ⟨t'', hct''⟩ hsame
        exact hlast k hk hk'.1)
    obtain ⟨n', h9, h10⟩ := value_again hcol hp (part_length hcol (hs _ _ hv))
    rw [h7] at h9
    cases h9
    rw [hv, pointOf_get, hm']
    dsimp only [Option.map_some]
    have hpart : c.part (window r m'.offset m'.size) = writeNum c.type n := by
      rw [← h8]
      unfold Column.part
      have := hcol.inside
      have h11 : m'.size = c.attr.size := by rw [← hmd']; rfl
      exact window_window (by omega)
    rw [hpart, h10]

theorem mapM_same {α γ : Type} {f g : α → Out γ} : ∀ {xs : List α}, (∀ x ∈ xs, f x = g x) → xs.mapM f = xs.mapM g
  | [], _ => rfl
  | x :: xs, h => by
    rw [List.mapM_cons, List.mapM_cons, h x List.mem_cons_self, mapM_same fun y hy => h y (List.mem_cons_of_mem _ hy)]

end Pasture.Ascii
