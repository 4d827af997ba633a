import Verif.Lemmas.Convert
import Verif.Lemmas.FloatOps

/-!
# Properties of attribute conversion: C25, C26, C63
-/

namespace Pasture.Props

open Spec

/-- The five vector types with three components, by component type. -/
def vec3Type : Prim → Option DataType
  | .u8 => some .vec3u8
  | .u16 => some .vec3u16
  | .i32 => some .vec3i32
  | .f32 => some .vec3f32
  | .f64 => some .vec3f64
  | _ => none

/-! ## C25 -/

/-- No converter is returned exactly when the datatypes are equal. -/
theorem C25_none_iff_equal (name : String) (a b : DataType) :
    getConverterForAttributes ⟨name, a⟩ ⟨name, b⟩ = .ok none ↔ a = b := by
  unfold getConverterForAttributes assertThat
  simp only [decide_true, if_true, bind, Except.bind]
  by_cases h : a = b
  · simp [h, pure, Except.pure]
  · simp only [getGenericConverter, h, iff_false]
    intro hc
    cases hl : genericConverters.lookup (a, b) <;> rw [hl] at hc <;> cases hc

theorem C25_names_must_agree (a b : AttrDef) (h : a.name ≠ b.name) :
    getConverterForAttributes a b = .error .panic := by
  unfold getConverterForAttributes assertThat
  rw [if_neg (by simpa using h)]
  rfl

/-- Every ordered pair of distinct scalar types has a converter, the one between these types. -/
theorem C25_scalar_converters (name : String) (p q : Prim) (h : p ≠ q) :
    getConverterForAttributes ⟨name, p.dataType⟩ ⟨name, q.dataType⟩ = .ok (some (.scalar p q)) := by
  unfold getConverterForAttributes assertThat
  simp only [decide_true, if_true, bind, Except.bind]
  revert h
  cases p <;> cases q <;> intro h <;> first | rfl | exact absurd rfl h

/-- Every ordered pair of distinct vector types has a converter, the one between these types. -/
theorem C25_vec3_converters (name : String) (p q : Prim) (a b : DataType) (hp : vec3Type p = some a)
    (hq : vec3Type q = some b) (h : p ≠ q) :
    getConverterForAttributes ⟨name, a⟩ ⟨name, b⟩ = .ok (some (.vec3 p q)) := by
  unfold getConverterForAttributes assertThat
  simp only [decide_true, if_true, bind, Except.bind]
  revert h hp hq
  cases p <;> cases q <;> intro hp hq h <;>
    first
    | exact absurd rfl h
    | (simp [vec3Type] at hp; done)
    | (simp [vec3Type] at hq; done)
    | (simp only [vec3Type, Option.some.injEq] at hp hq; subst hp; subst hq; rfl)

/-- A converter on one value of the source type gives one value of the target type, whatever the
    target slice contained before. -/
theorem C25_output_size (p q : Prim) (s t : Bytes) :
    (s.length = p.size → t.length = q.size → ∃ r, (Converter.scalar p q).run s t = .ok r ∧ r.length = q.size) ∧
    (s.length = 3 * p.size → t.length = 3 * q.size →
      ∃ r, (Converter.vec3 p q).run s t = .ok r ∧ r.length = 3 * q.size) := by
  constructor
  · intro hs ht
    exact ⟨_, run_scalar_num p q hs ht, writeNum_length _ _⟩
  · intro hs ht
    unfold Converter.run
    simp only
    rw [if_pos (by omega)]
    refine ⟨_, rfl, ?_⟩
    rw [put_all (by simp [writeNum_length, ht]; omega)]
    simp [writeNum_length]
    omega

/-- Integer conversions wrap modulo 2^bits of the target. -/
theorem C25_integers_wrap (p q : Prim) (hp : p.isInt = true) (hq : q.isInt = true) (s t : Bytes) (z : Int)
    (hs : Holds p s z) (ht : t.length = q.size) :
    ∃ r w, (Converter.scalar p q).run s t = .ok r ∧ Holds q r w ∧
      w % 2 ^ (8 * q.size) = z % 2 ^ (8 * q.size) := by
  refine ⟨_, _, run_scalar_num p q hs.length ht, ?_, (wrapInt_spec hq z).2.2⟩
  rw [holds_read hp hs, asNum_int hq]
  obtain ⟨h1, h2, _⟩ := wrapInt_spec hq z
  exact holds_write ⟨h1, h2⟩

/-- A value the target type can represent is preserved; in particular by every widening conversion. -/
theorem C25_representable_preserved (p q : Prim) (hp : p.isInt = true) (hq : q.isInt = true) (s t : Bytes)
    (z : Int) (hs : Holds p s z) (ht : t.length = q.size) (hz : q.lo ≤ z ∧ z ≤ q.hi) :
    ∃ r, (Converter.scalar p q).run s t = .ok r ∧ Holds q r z := by
  obtain ⟨r, w, h1, h2, h3⟩ := C25_integers_wrap p q hp hq s t z hs ht
  refine ⟨r, h1, ?_⟩
  have := range_unique hq h2.range hz h3
  rw [← this]
  exact h2

/-- Converting to a type with a larger range and back gives back the same bytes. -/
theorem C25_wide_and_back (p q : Prim) (hp : p.isInt = true) (hq : q.isInt = true)
    (hw : q.lo ≤ p.lo ∧ p.hi ≤ q.hi) (s t u : Bytes) (hs : s.length = p.size) (ht : t.length = q.size)
    (hu : u.length = p.size) :
    ∃ r, (Converter.scalar p q).run s t = .ok r ∧ (Converter.scalar q p).run r u = .ok s := by
  obtain ⟨z, hz⟩ := holds_exists hp hs
  obtain ⟨r, h1, h2⟩ := C25_representable_preserved p q hp hq s t z hz ht
    ⟨le_trans hw.1 hz.range.1, le_trans hz.range.2 hw.2⟩
  obtain ⟨s', h3, h4⟩ := C25_representable_preserved q p hq hp r u z h2 hu hz.range
  exact ⟨r, h1, by rw [h3, holds_bytes h4 hz]⟩

/-- Vector conversions act on each component as the scalar conversion does. -/
theorem C25_vec3_componentwise (p q : Prim) (s t : Bytes) (hs : s.length = 3 * p.size)
    (ht : t.length = 3 * q.size) :
    ∃ r, (Converter.vec3 p q).run s t = .ok r ∧ r.length = 3 * q.size ∧
      ∀ i, i < 3 → ∀ u : Bytes, u.length = q.size →
        (Converter.scalar p q).run ((s.drop (i * p.size)).take p.size) u =
          .ok ((r.drop (i * q.size)).take q.size) := by
  have hrun : (Converter.vec3 p q).run s t = .ok
      (writeNum q (asNum q (readNum p (Converter.component p.size 0 s))) ++
       writeNum q (asNum q (readNum p (Converter.component p.size 1 s))) ++
       writeNum q (asNum q (readNum p (Converter.component p.size 2 s)))) := by
    unfold Converter.run
    simp only
    rw [if_pos (by omega), put_all (by simp [writeNum_length, ht]; omega)]
  refine ⟨_, hrun, by simp [writeNum_length]; omega, ?_⟩
  intro i hi u hu
  rw [run_scalar_num p q (by simp; rcases i with _ | _ | _ | i <;> omega) hu]
  congr 1
  have hl := fun j => writeNum_length q (asNum q (readNum p (Converter.component p.size j s)))
  have key : ∀ a b c : Bytes, a.length = q.size → b.length = q.size → c.length = q.size →
      ((a ++ b ++ c).drop (0 * q.size)).take q.size = a ∧
      ((a ++ b ++ c).drop (1 * q.size)).take q.size = b ∧
      ((a ++ b ++ c).drop (2 * q.size)).take q.size = c := by
    intro a b c ha hb hc
    refine ⟨?_, ?_, ?_⟩
    · simp [ha]
    · simp [ha, hb]
    · rw [List.drop_left' (by simp; omega)]
      exact List.take_of_length_le (by omega)
  obtain ⟨k0, k1, k2⟩ := key _ _ _ (hl 0) (hl 1) (hl 2)
  rcases i with _ | _ | _ | i
  · exact k0.symm
  · exact k1.symm
  · exact k2.symm
  · omega

example : Holds .i16 [0xfe, 0xff] (-2) ∧ (Converter.scalar .i16 .u8).run [0xfe, 0xff] [0] = .ok [0xfe] ∧
    (Converter.scalar .i16 .i32).run [0xfe, 0xff] [0, 0, 0, 0] = .ok [0xfe, 0xff, 0xff, 0xff] ∧
    (Converter.vec3 .u16 .u8).run [1, 0, 2, 1, 3, 0] [9, 9, 9] = .ok [1, 2, 3] ∧
    Prim.i32.lo ≤ Prim.i16.lo ∧ Prim.i16.hi ≤ Prim.i32.hi := by
  refine ⟨⟨by decide, by decide, by decide⟩, by decide, by decide, by decide, by decide, by decide⟩

/-! ## C26 -/

/-- C26 is false of the code, for every pair of datatypes without a conversion: asking for a converter
    panics. (`get_converter_for_attributes` documents the panic, but its return type, and the callers in
    `buffer_views.rs` and `untyped_point.rs`, treat `None` as "no conversion exists".) -/
theorem C26_violated (name : String) (a b : DataType) (h : conversion a b = none) :
    getConverterForAttributes ⟨name, a⟩ ⟨name, b⟩ = .error .panic := by
  have hne : a ≠ b := by
    rintro rfl
    unfold conversion at h
    simp at h
  unfold getConverterForAttributes assertThat
  simp only [decide_true, if_true, bind, Except.bind, if_neg hne]
  exact (generic_spec hne).1 h

/-- What holds instead: every pair that has a conversion gets an answer, namely a converter that
    computes it. -/
theorem C26_partial (name : String) (a b : DataType) (f : Bytes → Bytes) (h : conversion a b = some f) :
    ∃ c, getConverterForAttributes ⟨name, a⟩ ⟨name, b⟩ = .ok c ∧
      ∀ c', c = some c' → ∀ s t : Bytes, s.length = a.size → t.length = b.size → c'.run s t = .ok (f s) := by
  by_cases hab : a = b
  · exact ⟨none, (C25_none_iff_equal name a b).2 hab, by simp⟩
  · obtain ⟨c, h1, h2⟩ := (generic_spec hab).2 f h
    refine ⟨some c, ?_, ?_⟩
    · unfold getConverterForAttributes assertThat
      simp only [decide_true, if_true, bind, Except.bind, if_neg hab]
      exact h1
    · rintro c' ⟨⟩
      exact h2.run

example : conversion .vec4u8 .f32 = none ∧ conversion .u8 .vec3u8 = none ∧
    (conversion .u8 .f32).isSome ∧ (conversion .vec3u8 .vec3f64).isSome := by decide

example : getConverterForAttributes ⟨"a", .vec4u8⟩ ⟨"a", .f32⟩ = .error .panic ∧
    getConverterForAttributes ⟨"a", .u8⟩ ⟨"a", .vec3u8⟩ = .error .panic := by
  exact ⟨by decide, by decide⟩

/-! ## C63: floating point conversions -/

theorem rounds_mag {F : FloatFormat} {q : ℚ} {y : Flt F} (h : RoundsTo q y) : y.mag ≤ F.infMag := by
  have := of_decide_eq_false (p := F.infMag < y.mag) h.not_nan
  omega

theorem one_ne (F : FloatFormat) : (F.one : ℚ) ≠ 0 :=
  Nat.cast_ne_zero.2 (Nat.pos_iff_ne_zero.1 F.one_pos)

theorem value_of_units {F : FloatFormat} (hF : Usable F) {x : Flt F} {z : Int} (h : x.sunits = z * F.one) :
    value x = z := by
  rw [value_eq hF, h]
  push_cast
  rw [mul_div_assoc, div_self (one_ne F), mul_one]

theorem ofInt_rounds {F : FloatFormat} (hF : Usable F) (z : Int) : RoundsTo (z : ℚ) (Flt.ofInt F z) := by
  have h := ofUnits_rounds hF (z * F.one) (den := 1) (by omega) false
  have hone := one_ne F
  push_cast at h
  rw [one_mul, mul_div_assoc, div_self hone, mul_one] at h
  exact h

/-- Integer to float: the nearest float. -/
theorem C63_int_to_float (p : Prim) (hp : p.isInt = true) (s : Bytes) (z : Int) (hs : Holds p s z) :
    (∀ t : Bytes, t.length = 4 → ∃ r x, (Converter.scalar p .f32).run s t = .ok r ∧ HoldsF32 r x ∧
      RoundsTo (z : ℚ) x) ∧
    (∀ t : Bytes, t.length = 8 → ∃ r x, (Converter.scalar p .f64).run s t = .ok r ∧ HoldsF64 r x ∧
      RoundsTo (z : ℚ) x) := by
  constructor
  · intro t ht
    refine ⟨_, Flt.ofInt .f32 z, run_scalar_num p .f32 hs.length ht, ?_, ofInt_rounds usable_f32 z⟩
    rw [holds_read hp hs]
    exact holdsF32_write (lt_of_le_of_lt (rounds_mag (ofInt_rounds usable_f32 z)) (by decide))
  · intro t ht
    refine ⟨_, Flt.ofInt .f64 z, run_scalar_num p .f64 hs.length ht, ?_, ofInt_rounds usable_f64 z⟩
    rw [holds_read hp hs]
    exact holdsF64_write (lt_of_le_of_lt (rounds_mag (ofInt_rounds usable_f64 z)) (by decide))

/-- Float to integer: truncation towards zero, clamped to the integer type; NaN becomes 0. -/
theorem C63_float_to_int (q : Prim) (hq : q.isInt = true) (s t : Bytes) (x : F64) (hs : HoldsF64 s x)
    (ht : t.length = q.size) :
    ∃ r w, (Converter.scalar .f64 q).run s t = .ok r ∧ Holds q r w ∧
      (x.isFinite = true → w = max q.lo (min q.hi (trunc (value x)))) ∧
      (x.isInf = true → w = if x.neg then q.lo else q.hi) ∧ (x.isNaN = true → w = 0) := by
  have hr := prim_range q hq
  refine ⟨_, x.toIntSat q.lo q.hi, run_scalar_num .f64 q hs.length ht, ?_, ?_, ?_, ?_⟩
  · rw [holdsF64_read hs]
    have : asNum q (.double x) = .int (x.toIntSat q.lo q.hi) := by
      cases q <;> first | rfl | exact absurd hq (by decide)
    rw [this]
    apply holds_write
    unfold Flt.toIntSat
    split
    · omega
    · split
      · split <;> omega
      · omega
  · exact fun h => toIntSat_eq usable_f64 x h _ _
  · intro h
    unfold Flt.toIntSat
    have h1 : x.isNaN = false := by
      have := of_decide_eq_true h
      exact decide_eq_false (by omega)
    rw [h1, h]; rfl
  · intro h
    unfold Flt.toIntSat
    rw [h]; rfl

theorem C63_single_to_int (q : Prim) (hq : q.isInt = true) (s t : Bytes) (x : F32) (hs : HoldsF32 s x)
    (ht : t.length = q.size) :
    ∃ r w, (Converter.scalar .f32 q).run s t = .ok r ∧ Holds q r w ∧
      (x.isFinite = true → w = max q.lo (min q.hi (trunc (value x)))) ∧
      (x.isInf = true → w = if x.neg then q.lo else q.hi) ∧ (x.isNaN = true → w = 0) := by
  have hr := prim_range q hq
  refine ⟨_, x.toIntSat q.lo q.hi, run_scalar_num .f32 q hs.length ht, ?_, ?_, ?_, ?_⟩
  · rw [holdsF32_read hs]
    have : asNum q (.single x) = .int (x.toIntSat q.lo q.hi) := by
      cases q <;> first | rfl | exact absurd hq (by decide)
    rw [this]
    apply holds_write
    unfold Flt.toIntSat
    split
    · omega
    · split
      · split <;> omega
      · omega
  · exact fun h => toIntSat_eq usable_f32 x h _ _
  · intro h
    unfold Flt.toIntSat
    have h1 : x.isNaN = false := by
      have := of_decide_eq_true h
      exact decide_eq_false (by omega)
    rw [h1, h]; rfl
  · intro h
    unfold Flt.toIntSat
    rw [h]; rfl

/-- `f32` to `f64` keeps the value, and `f32` to `f64` to `f32` gives back the same bytes, for
    everything but NaNs. -/
theorem C63_single_to_double (s t u : Bytes) (x : F32) (hs : HoldsF32 s x) (ht : t.length = 8)
    (hu : u.length = 4) (hx : x.isNaN = false) :
    ∃ r y, (Converter.scalar .f32 .f64).run s t = .ok r ∧ HoldsF64 r y ∧ y.neg = x.neg ∧
      (x.isFinite = true → y.isFinite = true ∧ value y = value x) ∧ (x.isInf = true → y.isInf = true) ∧
      (Converter.scalar .f64 .f32).run r u = .ok s := by
  have hmag : (x.cast .f64).mag < 2 ^ 63 ∧ (x.cast .f64).neg = x.neg ∧
      (x.isFinite = true → (x.cast .f64).isFinite = true ∧ value (x.cast .f64) = value x) ∧
      (x.isInf = true → x.cast .f64 = Flt.inf .f64 x.neg) := by
    by_cases hf : x.isFinite = true
    · obtain ⟨h1, h2, h3⟩ := cast_exact usable_f32 usable_f64 (by decide) (by decide) x hf
      refine ⟨?_, h3, fun _ => ⟨h1, h2⟩, fun h => ?_⟩
      · exact lt_trans (of_decide_eq_true h1) (by decide)
      · rw [(Flt.finite_cases hf).2] at h; cases h
    · have hi : x.isInf = true := by
        have h1 := of_decide_eq_false (p := FloatFormat.f32.infMag < x.mag) hx
        have h2 : ¬ x.mag < FloatFormat.f32.infMag := fun h => hf (decide_eq_true h)
        exact decide_eq_true (by omega)
      have : x.cast .f64 = Flt.inf .f64 x.neg := by unfold Flt.cast; rw [hx, hi]; rfl
      rw [this]
      exact ⟨show FloatFormat.f64.infMag < 2 ^ 63 by decide, rfl, fun h => absurd h hf, fun _ => rfl⟩
  obtain ⟨h1, h2, h3, h4⟩ := hmag
  have hr : HoldsF64 (writeNum .f64 (asNum .f64 (readNum .f32 s))) (x.cast .f64) := by
    rw [holdsF32_read hs]; exact holdsF64_write h1
  refine ⟨_, x.cast .f64, run_scalar_num .f32 .f64 hs.length ht, hr, h2, h3, ?_, ?_⟩
  · intro h; rw [h4 h]; exact decide_eq_true rfl
  · rw [run_scalar_num .f64 .f32 hr.length hu, holdsF64_read hr]
    have hback : (x.cast .f64).cast .f32 = x := by
      by_cases hf : x.isFinite = true
      · exact cast_back usable_f32 usable_f64 x _ (h3 hf).1 hf (h3 hf).2 h2
      · have hi : x.isInf = true := by
          have h1 := of_decide_eq_false (p := FloatFormat.f32.infMag < x.mag) hx
          have h2 : ¬ x.mag < FloatFormat.f32.infMag := fun h => hf (decide_eq_true h)
          exact decide_eq_true (by omega)
        rw [h4 hi]
        have hm := of_decide_eq_true hi
        obtain ⟨neg, mag⟩ := x
        simp only at hm
        subst hm
        cases neg <;> decide +kernel
    show Except.ok (writeNum .f32 (.single ((x.cast .f64).cast .f32))) = _
    rw [hback, holdsF32_bytes (holdsF32_write hs.range) hs]

/-- `f64` to `f32`: the nearest `f32`. -/
theorem C63_double_to_single (s t : Bytes) (x : F64) (hs : HoldsF64 s x) (ht : t.length = 4)
    (hx : x.isFinite = true) :
    ∃ r y, (Converter.scalar .f64 .f32).run s t = .ok r ∧ HoldsF32 r y ∧ RoundsTo (value x) y := by
  obtain ⟨h1, h2⟩ := Flt.finite_cases hx
  have hc : x.cast .f32 = Flt.ofUnits .f32 (x.sunits * FloatFormat.f32.one) FloatFormat.f64.one x.neg := by
    unfold Flt.cast; rw [h1, h2]; rfl
  have hr : RoundsTo (value x) (x.cast .f32) := by
    rw [hc]
    have h := ofUnits_rounds usable_f32 (x.sunits * FloatFormat.f32.one) FloatFormat.f64.one_pos x.neg
    rw [value_eq usable_f64]
    have a1 := one_ne FloatFormat.f32
    push_cast at h
    rwa [mul_div_mul_right _ _ a1] at h
  refine ⟨_, x.cast .f32, run_scalar_num .f64 .f32 hs.length ht, ?_, hr⟩
  rw [holdsF64_read hs]
  exact holdsF32_write (lt_of_le_of_lt (rounds_mag hr) (by decide))

/-- Integers of up to 53 bits (24 bits for `f32`) survive the conversion to a float and back. -/
theorem C63_int_float_int (p : Prim) (hp : p.isInt = true) (s t u : Bytes) (z : Int) (hs : Holds p s z)
    (hu : u.length = p.size) :
    (z.natAbs ≤ 2 ^ 53 → t.length = 8 → ∃ r, (Converter.scalar p .f64).run s t = .ok r ∧
      (Converter.scalar .f64 p).run r u = .ok s) ∧
    (z.natAbs ≤ 2 ^ 24 → t.length = 4 → ∃ r, (Converter.scalar p .f32).run s t = .ok r ∧
      (Converter.scalar .f32 p).run r u = .ok s) := by
  constructor
  · intro hz ht
    obtain ⟨h1, h2⟩ := ofInt_exact usable_f64 hz
    have hw : HoldsF64 (writeNum .f64 (asNum .f64 (readNum p s))) (Flt.ofInt .f64 z) := by
      rw [holds_read hp hs]
      exact holdsF64_write (lt_of_le_of_lt (rounds_mag (ofInt_rounds usable_f64 z)) (by decide))
    refine ⟨_, run_scalar_num p .f64 hs.length ht, ?_⟩
    obtain ⟨r, w, hr, hh, hf, _, _⟩ := C63_float_to_int p hp _ u _ hw hu
    rw [hr]
    have hv : value (Flt.ofInt .f64 z) = z := value_of_units usable_f64 h2
    have hwz : w = z := by
      rw [hf h1, hv]
      have := hs.range
      have ht : trunc (z : ℚ) = z := by unfold trunc; simp
      rw [ht]
      omega
    rw [hwz] at hh
    rw [holds_bytes hh hs]
  · intro hz ht
    obtain ⟨h1, h2⟩ := ofInt_exact usable_f32 hz
    have hw : HoldsF32 (writeNum .f32 (asNum .f32 (readNum p s))) (Flt.ofInt .f32 z) := by
      rw [holds_read hp hs]
      exact holdsF32_write (lt_of_le_of_lt (rounds_mag (ofInt_rounds usable_f32 z)) (by decide))
    refine ⟨_, run_scalar_num p .f32 hs.length ht, ?_⟩
    obtain ⟨r, w, hr, hh, hf, _, _⟩ := C63_single_to_int p hp _ u _ hw hu
    rw [hr]
    have hv : value (Flt.ofInt .f32 z) = z := value_of_units usable_f32 h2
    have hwz : w = z := by
      rw [hf h1, hv]
      have := hs.range
      have ht : trunc (z : ℚ) = z := by unfold trunc; simp
      rw [ht]
      omega
    rw [hwz] at hh
    rw [holds_bytes hh hs]

/-- 16777217 = 2^24 + 1 is not an `f32`; -1.5 truncates to -1; 300.0 saturates at 255. -/
example :
    (Converter.scalar .u32 .f32).run [1, 0, 0, 1] [0, 0, 0, 0] = .ok [0, 0, 0x80, 0x4b] ∧
    HoldsF64 [0, 0, 0, 0, 0, 0, 0xf8, 0xbf] ⟨true, 0x3ff8000000000000⟩ ∧
    (Converter.scalar .f64 .i8).run [0, 0, 0, 0, 0, 0, 0xf8, 0xbf] [0] = .ok [0xff] ∧
    (Converter.scalar .f64 .u8).run [0, 0, 0, 0, 0, 0xc0, 0x72, 0x40] [0] = .ok [0xff] := by
  refine ⟨by decide +kernel, ⟨by decide +kernel, by decide +kernel, by decide +kernel⟩, by decide +kernel, by decide +kernel⟩

end Pasture.Props
