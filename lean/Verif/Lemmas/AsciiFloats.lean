import Verif.Lemmas.AsciiNumbers

/-! # Floating point numbers as text -/

namespace Pasture.Ascii

open Pasture.Spec Pasture.Spec.Ascii

/-! ## Parsing -/

theorem splitSign_spec (s : List Char) : Signed s (splitSign s).1 (splitSign s).2 := by
  unfold splitSign
  split
  · exact .inl ⟨rfl, rfl⟩
  · exact .inr (.inl ⟨rfl, rfl⟩)
  · next r h1 h2 =>
    refine .inr (.inr ⟨rfl, rfl, ?_, ?_⟩)
    · intro h
      cases s with
      | nil => exact absurd h (by simp)
      | cons c r => obtain rfl := Option.some.inj h; exact h1 r rfl
    · intro h
      cases s with
      | nil => exact absurd h (by simp)
      | cons c r => obtain rfl := Option.some.inj h; exact h2 r rfl

theorem splitSign_unique {s t : List Char} {neg : Bool} (h : Signed s neg t) : splitSign s = (neg, t) := by
  rcases h with ⟨rfl, rfl⟩ | ⟨rfl, rfl⟩ | ⟨rfl, rfl, h1, h2⟩
  · rfl
  · rfl
  · unfold splitSign
    split
    · exact (h1 rfl).elim
    · exact (h2 rfl).elim
    · rfl

theorem leadingDigits_append {ds rest : List Char} (h : IsDigits ds)
    (hr : ∀ c ∈ rest.head?, ¬ ('0' ≤ c ∧ c ≤ '9')) : leadingDigits (ds ++ rest) = (ds, rest) := by
  unfold leadingDigits
  have h1 : ∀ c ∈ ds, (digit c).isSome = true := fun c hc => (digit_isSome c).2 (h c hc)
  rw [List.takeWhile_append_of_pos h1, List.dropWhile_append_of_pos h1]
  cases rest with
  | nil => simp
  | cons c r =>
    have : (digit c).isSome = false := by
      rw [Bool.eq_false_iff]
      exact fun hc => hr c (by simp) ((digit_isSome c).1 hc)
    rw [List.takeWhile_cons, List.dropWhile_cons, this]
    simp

theorem leadingDigits_spec (s : List Char) : s = (leadingDigits s).1 ++ (leadingDigits s).2 ∧
    IsDigits (leadingDigits s).1 ∧ ∀ c ∈ (leadingDigits s).2.head?, ¬ ('0' ≤ c ∧ c ≤ '9') := by
  unfold leadingDigits
  refine ⟨(List.takeWhile_append_dropWhile).symm, fun c hc => ?_, fun c hc h => ?_⟩
  · exact (digit_isSome c).1 (List.all_eq_true.1 (List.all_takeWhile (p := fun c => (digit c).isSome) (l := s)) c hc)
  · have := List.head?_dropWhile_not (fun c => (digit c).isSome) s
    dsimp only at hc this
    rw [Option.mem_def] at hc
    rw [hc] at this
    have h2 := (digit_isSome c).2 h
    simp [h2] at this

theorem parseExponent_iff (s : List Char) (e : Int) : parseExponent s = some e ↔ ExponentText s e := by
  cases s with
  | nil =>
    constructor
    · intro h; exact .inl ⟨rfl, (Option.some.inj h).symm⟩
    · rintro (⟨-, rfl⟩ | ⟨c, ds, -, -, -, ⟨h | h, -⟩ | ⟨h, -⟩⟩)
      · rfl
      all_goals exact absurd h (by simp)
  | cons c cs =>
    have hall : ∀ ds : List Char, ds.all (fun c => (digit c).isSome) = true ↔ IsDigits ds := fun ds => by
      rw [List.all_eq_true]
      exact ⟨fun h c hc => (digit_isSome c).1 (h c hc), fun h c hc => (digit_isSome c).2 (h c hc)⟩
    unfold parseExponent
    by_cases hc : c = 'e' ∨ c = 'E'
    · simp only [if_pos hc]
      constructor
      · intro h
        have hs := splitSign_spec cs
        generalize splitSign cs = st at h hs
        obtain ⟨neg, ds⟩ := st
        simp only at h hs
        by_cases hd : ds ≠ [] ∧ ds.all (fun c => (digit c).isSome) = true
        · rw [if_pos hd] at h
          have h := Option.some.inj h
          have hd2 := (hall ds).1 hd.2
          rw [digitsValue_eq hd2] at h
          refine .inr ⟨c, ds, hc, hd.1, hd2, ?_⟩
          rcases hs with ⟨rfl, rfl⟩ | ⟨rfl, rfl⟩ | ⟨rfl, rfl, -, -⟩
          · exact .inr ⟨rfl, by simpa using h.symm⟩
          · exact .inl ⟨.inr rfl, by simpa using h.symm⟩
          · exact .inl ⟨.inl rfl, by simpa using h.symm⟩
        · rw [if_neg hd] at h; exact absurd h (by simp)
      · rintro (⟨h, -⟩ | ⟨c', ds, -, h1, h2, h3⟩)
        · exact absurd h (by simp)
        · have key : ∀ neg, Signed cs neg ds → e = (if neg then -(digitsNumber ds : Int) else digitsNumber ds) →
              (match splitSign cs with
              | (neg, ds) =>
                if ds ≠ [] ∧ ds.all (fun c => (digit c).isSome) = true then
                  some (if neg = true then -(digitsValue ds : Int) else digitsValue ds)
                else none) = some e := by
            intro neg hs he
            rw [splitSign_unique hs]
            show (if _ then _ else _) = _
            rw [if_pos ⟨h1, (hall ds).2 h2⟩, digitsValue_eq h2, he]
          rcases h3 with ⟨h3 | h3, h4⟩ | ⟨h3, h4⟩
          · obtain rfl := (List.cons.inj h3).2
            refine key false (.inr (.inr ⟨rfl, rfl, ?_, ?_⟩)) h4
            · intro h
              cases cs with
              | nil => exact h1 rfl
              | cons a r => obtain rfl := Option.some.inj h; exact not_digits_of_head (by decide) h2
            · intro h
              cases cs with
              | nil => exact h1 rfl
              | cons a r => obtain rfl := Option.some.inj h; exact not_digits_of_head (by decide) h2
          · exact key false (.inr (.inl ⟨(List.cons.inj h3).2, rfl⟩)) h4
          · exact key true (.inl ⟨(List.cons.inj h3).2, rfl⟩) h4
    · simp only [if_neg hc]
      constructor
      · intro h; exact absurd h (by simp)
      · rintro (⟨h, -⟩ | ⟨c', ds, h0, h1, h2, ⟨h | h, -⟩ | ⟨h, -⟩⟩)
        · exact absurd h (by simp)
        all_goals
          obtain rfl := (List.cons.inj h).1
          exact (hc h0).elim

theorem exponent_head {s : List Char} {e : Int} (h : ExponentText s e) :
    ∀ c ∈ s.head?, ¬ ('0' ≤ c ∧ c ≤ '9') ∧ c ≠ '.' := by
  rcases h with ⟨rfl, -⟩ | ⟨c, ds, hc, -, -, ⟨h | h, -⟩ | ⟨h, -⟩⟩
  · intro c hc; exact absurd hc (by simp)
  all_goals
    subst h
    intro a ha
    obtain rfl := Option.some.inj ha
    rcases hc with rfl | rfl <;> decide

theorem ten_zpow (e : Int) : (10 : ℚ) ^ e = 10 ^ e.toNat / 10 ^ (-e).toNat := by
  rcases Int.le_total 0 e with h | h
  · obtain ⟨n, rfl⟩ := Int.eq_ofNat_of_zero_le h
    have : (-(n : Int)).toNat = 0 := by omega
    rw [this, zpow_natCast, Int.toNat_natCast, pow_zero, div_one]
  · obtain ⟨n, rfl⟩ : ∃ n : Nat, e = -(n : Int) := ⟨(-e).toNat, by omega⟩
    have : (-(n : Int)).toNat = 0 := by omega
    rw [this, zpow_neg, zpow_natCast, neg_neg, Int.toNat_natCast, pow_zero, one_div]

theorem decimalToF64_rounds (neg : Bool) (m : Nat) (e : Int) :
    RoundsTo (if neg then -((m : ℚ) * (10 : ℚ) ^ e) else (m : ℚ) * (10 : ℚ) ^ e) (decimalToF64 neg m e) ∧
      (decimalToF64 neg m e).neg = neg := by
  have hone : (FloatFormat.f64.one : ℚ) ≠ 0 := by
    have : (0 : ℚ) < FloatFormat.f64.one := by exact_mod_cast FloatFormat.one_pos
    exact this.ne'
  have hden : 0 < 10 ^ (-e).toNat := Nat.pow_pos (by omega)
  unfold decimalToF64
  refine ⟨?_, ?_⟩
  · have h := ofUnits_rounds usable_f64
      (if neg then -((m * FloatFormat.f64.one * 10 ^ e.toNat : Nat) : Int) else
        ((m * FloatFormat.f64.one * 10 ^ e.toNat : Nat) : Int)) hden neg
    convert h using 1
    rw [ten_zpow]
    cases neg
    · simp only [Bool.false_eq_true, if_false]
      push_cast
      field_simp
    · simp only [if_true]
      push_cast
      field_simp
  · unfold Flt.ofUnits
    dsimp only
    cases neg
    · simp only [Bool.false_eq_true, if_false]
      split
      · rfl
      · exact decide_eq_false (by omega)
    · simp only [if_true]
      split
      · rfl
      · exact decide_eq_true (by omega)

theorem fraction_point (r : List Char) : fraction ('.' :: r) = leadingDigits r := rfl

theorem fraction_other {s : List Char} (h : ∀ c ∈ s.head?, c ≠ '.') : fraction s = ([], s) := by
  unfold fraction
  split
  · exact (h '.' rfl rfl).elim
  · rfl

theorem parseDecimal_parts {neg : Bool} {t int t1 frac tail : List Char} (h1 : leadingDigits t = (int, t1))
    (h2 : fraction t1 = (frac, tail)) :
    parseDecimal neg t = if int = [] ∧ frac = [] then none else
      (parseExponent tail).map fun e => decimalToF64 neg (digitsValue (int ++ frac)) (e - frac.length) := by
  unfold parseDecimal
  rw [h1]
  dsimp only
  rw [h2]
  dsimp only
  split
  · rfl
  · cases parseExponent tail <;> rfl

theorem parseDecimal_spec (neg : Bool) (t : List Char) :
    (∀ x, parseDecimal neg t = some x → ∃ m, UnsignedDecimal t m ∧ RoundsTo (if neg then -m else m) x ∧ x.neg = neg) ∧
    (∀ m, UnsignedDecimal t m → ∃ x, parseDecimal neg t = some x) := by
  constructor
  · intro x hx
    obtain ⟨h1, h2, h3⟩ := leadingDigits_spec t
    have hp := parseDecimal_parts (neg := neg) (t := t) (int := (leadingDigits t).1) (t1 := (leadingDigits t).2) (frac := (fraction (leadingDigits t).2).1)
      (tail := (fraction (leadingDigits t).2).2) rfl rfl
    generalize hi : (leadingDigits t).1 = int at *
    generalize hr : (leadingDigits t).2 = t1 at *
    rw [hx] at hp
    have hfr : IsDigits (fraction t1).1 ∧ (t1 = '.' :: (fraction t1).1 ++ (fraction t1).2 ∨
        (fraction t1).1 = [] ∧ t1 = (fraction t1).2) := by
      by_cases hc : t1.head? = some '.'
      · obtain ⟨r, rfl⟩ : ∃ r, t1 = '.' :: r := by
          cases t1 with
          | nil => exact absurd hc (by simp)
          | cons a r => obtain rfl := Option.some.inj hc; exact ⟨r, rfl⟩
        rw [fraction_point]
        obtain ⟨a1, a2, -⟩ := leadingDigits_spec r
        exact ⟨a2, .inl (by rw [List.cons_append, ← a1])⟩
      · rw [fraction_other fun c hc' h => hc (h ▸ hc')]
        exact ⟨isDigits_nil, .inr ⟨rfl, rfl⟩⟩
    generalize (fraction t1).1 = frac at *
    generalize (fraction t1).2 = tail at *
    obtain ⟨hf1, hf2⟩ := hfr
    by_cases he : int = [] ∧ frac = []
    · rw [if_pos he] at hp; exact absurd hp (by simp)
    · rw [if_neg he] at hp
      cases hpe : parseExponent tail with
      | none => rw [hpe] at hp; exact absurd hp (by simp)
      | some e =>
        rw [hpe] at hp
        obtain rfl := Option.some.inj hp
        have hd := decimalToF64_rounds neg (digitsValue (int ++ frac)) (e - frac.length)
        rw [digitsValue_eq (isDigits_append.2 ⟨h2, hf1⟩)] at hd ⊢
        refine ⟨_, ⟨int, frac, tail, e, h2, hf1, ?_, (parseExponent_iff _ _).1 hpe, ?_, rfl⟩, hd⟩
        · by_cases hint : int = []
          · exact .inr fun h => he ⟨hint, h⟩
          · exact .inl hint
        · rcases hf2 with hf2 | ⟨hf2, hf3⟩
          · exact .inl (by rw [h1, hf2, List.append_assoc])
          · exact .inr ⟨hf2, by rw [h1, hf3]⟩
  · rintro m ⟨int, frac, tail, e, h1, h2, h3, h4, h5, -⟩
    have htail := exponent_head h4
    have hlead : leadingDigits (frac ++ tail) = (frac, tail) := leadingDigits_append h2 fun c hc => (htail c hc).1
    have hexp := (parseExponent_iff _ _).2 h4
    have hne : ¬ (int = [] ∧ frac = []) := fun h => h3.elim (fun h' => h' h.1) fun h' => h' h.2
    rcases h5 with rfl | ⟨rfl, rfl⟩
    · have hl : leadingDigits (int ++ '.' :: frac ++ tail) = (int, '.' :: frac ++ tail) := by
        rw [List.append_assoc]
        refine leadingDigits_append h1 fun c hc => ?_
        obtain rfl := Option.some.inj hc
        decide
      rw [parseDecimal_parts hl (by rw [List.cons_append, fraction_point, hlead]), if_neg hne, hexp]
      exact ⟨_, rfl⟩
    · rw [parseDecimal_parts (leadingDigits_append h1 fun c hc => (htail c hc).1)
        (fraction_other fun c hc => (htail c hc).2), if_neg hne, hexp]
      exact ⟨_, rfl⟩

/-- An unsigned decimal number starts with a digit or a point. -/
theorem decimal_head {t : List Char} {m : ℚ} (h : UnsignedDecimal t m) :
    ∃ c r, t = c :: r ∧ (('0' ≤ c ∧ c ≤ '9') ∨ c = '.') := by
  obtain ⟨int, frac, tail, e, h1, h2, h3, h4, h5, -⟩ := h
  cases int with
  | cons c r =>
    refine ⟨c, ?_⟩
    rcases h5 with rfl | ⟨-, rfl⟩
    · exact ⟨_, rfl, .inl (isDigits_cons.1 h1).1⟩
    · exact ⟨_, rfl, .inl (isDigits_cons.1 h1).1⟩
  | nil =>
    rcases h5 with rfl | ⟨rfl, -⟩
    · exact ⟨'.', _, rfl, .inr rfl⟩
    · exact (h3.elim (fun h => h rfl) fun h => h rfl).elim

theorem not_word {c a : Char} {r w : List Char} (hc : ('0' ≤ c ∧ c ≤ '9') ∨ c = '.') (ha : 58 ≤ a.toNat) :
    (c :: r).map Char.toLower ≠ a :: w := by
  intro h
  have h := (List.cons.inj h).1
  have hl : c.toLower = c := by
    have hc' : c.toNat < 65 := by
      rcases hc with hc | rfl
      · have := (digit_range c).1 hc; omega
      · decide
    unfold Char.toLower
    refine dif_neg fun h => ?_
    have h := UInt32.le_iff_toNat_le.1 h.1
    exact absurd h (Nat.not_le.2 hc')
  rw [hl] at h
  subst h
  rcases hc with hc | rfl
  · have := (digit_range c).1 hc; omega
  · exact absurd ha (by decide)

theorem nan_isNaN (neg : Bool) : (⟨neg, FloatFormat.f64.nanMag⟩ : F64).isNaN = true := by
  show decide (FloatFormat.f64.infMag < FloatFormat.f64.nanMag) = true
  decide

/-- Floats are parsed as specified: texts that denote floats are accepted, and the result is right. -/
theorem parseF64_sound {s : List Char} {x : F64} (h : parseF64 s = some x) : FloatText s x := by
  unfold parseF64 at h
  have hs := splitSign_spec s
  generalize splitSign s = st at h hs
  obtain ⟨neg, t⟩ := st
  simp only at h hs
  by_cases h1 : t.map Char.toLower = ['n', 'a', 'n']
  · rw [if_pos h1] at h
    obtain rfl := Option.some.inj h
    exact .inr (.inr ⟨t, hs, h1, nan_isNaN neg⟩)
  · rw [if_neg h1] at h
    by_cases h2 : t.map Char.toLower = ['i', 'n', 'f'] ∨ t.map Char.toLower = ['i', 'n', 'f', 'i', 'n', 'i', 't', 'y']
    · rw [if_pos h2] at h
      obtain rfl := Option.some.inj h
      exact .inr (.inl ⟨t, hs, h2, by simp [Flt.isInf, Flt.inf]⟩)
    · rw [if_neg h2] at h
      obtain ⟨m, hm, hr, hn⟩ := (parseDecimal_spec neg t).1 x h
      subst hn
      exact .inl ⟨_, ⟨t, m, hs, hm, rfl⟩, hr⟩

theorem parseF64_complete {s : List Char} {x : F64} (h : FloatText s x) : ∃ y, parseF64 s = some y ∧ y.neg = x.neg ∧
    (y.isNaN = true ↔ x.isNaN = true) := by
  rcases h with ⟨q, ⟨t, m, hs, hm, rfl⟩, hr⟩ | ⟨t, hs, hw, hx⟩ | ⟨t, hs, hw, hx⟩
  · obtain ⟨y, hy⟩ := (parseDecimal_spec x.neg t).2 m hm
    obtain ⟨m', hm', hr', hn⟩ := (parseDecimal_spec x.neg t).1 y hy
    refine ⟨y, ?_, hn, by rw [hr'.not_nan, hr.not_nan]⟩
    obtain ⟨c, r, rfl, hc⟩ := decimal_head hm
    unfold parseF64
    rw [splitSign_unique hs]
    dsimp only
    rw [if_neg (not_word hc (by decide)), if_neg (not_or.2 ⟨not_word hc (by decide), not_word hc (by decide)⟩), hy]
  · unfold parseF64
    rw [splitSign_unique hs]
    dsimp only
    rw [if_neg (by rcases hw with hw | hw <;> (rw [hw]; decide)), if_pos (show _ = ['i', 'n', 'f'] ∨ _ = ['i', 'n', 'f', 'i', 'n', 'i', 't', 'y'] from hw)]
    refine ⟨_, rfl, rfl, ?_⟩
    have : x.mag = FloatFormat.f64.infMag := of_decide_eq_true hx
    simp [Flt.isNaN, Flt.inf, this]
  · unfold parseF64
    rw [splitSign_unique hs]
    dsimp only
    rw [if_pos (show _ = ['n', 'a', 'n'] from hw)]
    exact ⟨_, rfl, rfl, by rw [hx, nan_isNaN]⟩

/-! ## Printing -/

theorem trimLoop_digits (r : List Char) : ∀ (fr : List Char), fr ≠ [] → IsDigits fr →
    ∃ k fr', trimLoop (fr ++ '.' :: r) = fr' ++ '.' :: r ∧ fr = List.replicate k '0' ++ fr' ∧ fr' ≠ [] ∧
      (fr'.head? = some '0' → fr' = ['0']) := by
  intro fr
  induction fr with
  | nil => intro h; exact (h rfl).elim
  | cons c fr ih =>
    intro _ hd
    rw [List.cons_append]
    unfold trimLoop
    by_cases h : c = '0' ∧ (fr ++ '.' :: r).head? ≠ some '.'
    · rw [if_pos h]
      have hne : fr ≠ [] := by
        rintro rfl
        exact h.2 rfl
      obtain ⟨k, fr', h1, h2, h3, h4⟩ := ih hne (isDigits_cons.1 hd).2
      exact ⟨k + 1, fr', h1, by rw [h.1, h2, List.replicate_succ, List.cons_append], h3, h4⟩
    · rw [if_neg h]
      refine ⟨0, c :: fr, by rw [List.cons_append], rfl, by simp, fun h0 => ?_⟩
      obtain rfl := Option.some.inj h0
      cases fr with
      | nil => rfl
      | cons a fr =>
        exfalso
        apply h
        refine ⟨rfl, fun ha => ?_⟩
        obtain rfl := Option.some.inj ha
        exact absurd (isDigits_cons.1 (isDigits_cons.1 hd).2).1 (by decide)

/-- What the trimming does to a number with a point. -/
theorem trimZeros_point (a frac : List Char) (hne : frac ≠ []) (hd : IsDigits frac) :
    ∃ k frac', trimZeros (a ++ '.' :: frac) = a ++ '.' :: frac' ∧ frac = frac' ++ List.replicate k '0' ∧ frac' ≠ [] ∧
      (frac'.getLast? = some '0' → frac' = ['0']) := by
  obtain ⟨k, fr', h1, h2, h3, h4⟩ := trimLoop_digits a.reverse frac.reverse (by simpa using hne)
    (fun c hc => hd c (by simpa using hc))
  refine ⟨k, fr'.reverse, ?_, ?_, by simpa using h3, fun h => ?_⟩
  · unfold trimZeros
    rw [List.reverse_append, List.reverse_cons, List.append_assoc, List.singleton_append, h1]
    simp
  · have := congrArg List.reverse h2
    rw [List.reverse_reverse, List.reverse_append, List.reverse_replicate] at this
    exact this
  · rw [List.getLast?_reverse] at h
    rw [h4 h]
    rfl

theorem trimZeros_other (a : List Char) (h : a.getLast? ≠ some '0') : trimZeros a = a := by
  unfold trimZeros
  have : a.reverse.head? ≠ some '0' := by rwa [List.head?_reverse]
  generalize hr : a.reverse = r at this
  have ha : a = r.reverse := by rw [← hr, List.reverse_reverse]
  rw [ha]
  congr 1
  cases r with
  | nil => rfl
  | cons c r =>
    unfold trimLoop
    exact if_neg fun h' => this (by rw [h'.1]; rfl)

/-- Trimmed decimals have the same value. -/
theorem trimmed_number (int frac : List Char) (k : Nat) :
    (digitsNumber (int ++ (frac ++ List.replicate k '0')) : ℚ) / 10 ^ (frac ++ List.replicate k '0').length =
      digitsNumber (int ++ frac) / 10 ^ frac.length := by
  rw [← List.append_assoc, digitsNumber_append, replicate_zero_number, List.length_append, List.length_replicate, pow_add]
  push_cast
  field_simp
  ring

theorem roundDiv_close (a b : Nat) (hb : 0 < b) : |(roundDiv a b : ℚ) - a / b| ≤ 1 / 2 := by
  have hb' : (0 : ℚ) < b := by exact_mod_cast hb
  have hnat := Nat.div_add_mod' a b
  have hdiv : (a : ℚ) = ((a / b : Nat) : ℚ) * b + ((a % b : Nat) : ℚ) := by exact_mod_cast hnat.symm
  have hq : (a : ℚ) / b = ((a / b : Nat) : ℚ) + ((a % b : Nat) : ℚ) / b := by
    rw [div_eq_iff hb'.ne', add_mul, div_mul_cancel₀ _ hb'.ne']
    exact hdiv
  rw [hq]
  rcases roundDiv_cases (a := a) (b := b) with ⟨h1, h2, -⟩ | ⟨h1, h2, -⟩
  · have h2' : 2 * ((a % b : Nat) : ℚ) ≤ b := by exact_mod_cast h2
    have h3 : ((a % b : Nat) : ℚ) / b ≤ 1 / 2 := by rw [div_le_div_iff₀ hb' (by norm_num)]; linarith
    have h4 : (0 : ℚ) ≤ ((a % b : Nat) : ℚ) / b := by positivity
    rw [h1, abs_le]
    constructor <;> linarith
  · have h2' : (b : ℚ) ≤ 2 * ((a % b : Nat) : ℚ) := by exact_mod_cast h2
    have h3 : 1 / 2 ≤ ((a % b : Nat) : ℚ) / b := by rw [div_le_div_iff₀ (by norm_num) hb']; linarith
    have h4 : ((a % b : Nat) : ℚ) / b ≤ 1 := by
      rw [div_le_one hb']
      exact_mod_cast (Nat.mod_lt a hb).le
    rw [h1, abs_le]
    push_cast
    constructor <;> linarith

theorem scale_close (n u o : Nat) (p : Nat) (ho : 0 < o)
    (h : |(n : ℚ) - (u : ℚ) * ((10 : Nat) : ℚ) ^ p / o| ≤ 1 / 2) :
    |(n : ℚ) / 10 ^ p - (u : ℚ) / o| ≤ 1 / (2 * 10 ^ p) := by
  have ho' : (0 : ℚ) < o := by exact_mod_cast ho
  have hpow : (0 : ℚ) < 10 ^ p := by positivity
  have he : (n : ℚ) / 10 ^ p - (u : ℚ) / o = ((n : ℚ) - (u : ℚ) * ((10 : Nat) : ℚ) ^ p / o) / 10 ^ p := by
    push_cast
    field_simp
  rw [he, abs_div, abs_of_pos hpow, div_le_div_iff₀ hpow (by positivity)]
  generalize |(n : ℚ) - (u : ℚ) * ((10 : Nat) : ℚ) ^ p / o| = a at h
  nlinarith

theorem fixedText_plain (precision : Nat) (hp : 1 ≤ precision) (x : F64) :
    PlainFloat precision (trimZeros (fixedText precision x)) x := by
  unfold fixedText
  by_cases hn : x.isNaN = true
  · rw [if_pos hn, trimZeros_other _ (by decide)]
    exact .inr (.inr ⟨hn, rfl⟩)
  · rw [if_neg hn]
    dsimp only
    by_cases hi : x.isInf = true
    · rw [if_pos hi, trimZeros_other _ (by rw [List.getLast?_append]; simp)]
      exact .inr (.inl ⟨hi, rfl⟩)
    · rw [if_neg hi, if_neg (show ¬ precision = 0 by omega)]
      have hfin : x.isFinite = true := by
        have h1 : ¬ FloatFormat.f64.infMag < x.mag := fun h => hn (decide_eq_true h)
        have h2 : ¬ x.mag = FloatFormat.f64.infMag := fun h => hi (decide_eq_true h)
        exact decide_eq_true (by omega)
      have hclose := roundDiv_close (FloatFormat.f64.units x.mag * 10 ^ precision) FloatFormat.f64.one FloatFormat.one_pos
      generalize hn : roundDiv (FloatFormat.f64.units x.mag * 10 ^ precision) FloatFormat.f64.one = n at hclose ⊢
      obtain ⟨i1, i2, i3, -⟩ := natText_spec (n / 10 ^ precision)
      have f1 := fixedDigits_length precision (n % 10 ^ precision)
      have f2 := fixedDigits_digits precision (n % 10 ^ precision)
      have f3 := fixedDigits_number precision (n % 10 ^ precision)
      rw [Nat.mod_mod] at f3
      generalize natText (n / 10 ^ precision) = int at *
      generalize fixedDigits precision (n % 10 ^ precision) = frac at *
      have fne : frac ≠ [] := by rintro rfl; simp at f1; omega
      obtain ⟨k, frac', t1, t2, t3, t4⟩ := trimZeros_point ((if x.neg then ['-'] else []) ++ int) frac fne f2
      rw [t1]
      have hnum : digitsNumber (int ++ frac) = n := by
        rw [digitsNumber_append, i3, f1, f3, Nat.div_add_mod']
      refine .inl ⟨hfin, int, frac', i2, i1, ?_, t3, ?_, t4, rfl, ?_⟩
      · rw [t2] at f2; exact (isDigits_append.1 f2).1
      · rw [t2, List.length_append] at f1; omega
      · rw [← trimmed_number int frac' k, ← t2, hnum, f1, value_abs usable_f64]
        rw [Nat.cast_mul, Nat.cast_pow] at hclose
        exact scale_close _ _ _ _ FloatFormat.one_pos hclose

end Pasture.Ascii
