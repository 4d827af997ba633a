import Verif.Model.Ascii
import Verif.Spec.Ascii
import Verif.Lemmas.FloatValue
import Mathlib.Tactic.Ring
import Mathlib.Tactic.Linarith
import Mathlib.Tactic.FieldSimp
import Mathlib.Tactic.Positivity

/-! # Numbers as text -/

namespace Pasture.Ascii

open Pasture.Spec Pasture.Spec.Ascii

/-! ## Digits -/

theorem digit_range (c : Char) : ('0' ≤ c ∧ c ≤ '9') ↔ 48 ≤ c.toNat ∧ c.toNat ≤ 57 := by
  have h0 : ('0' ≤ c) ↔ 48 ≤ c.toNat := by
    rw [Char.le_def, UInt32.le_iff_toNat_le]; rfl
  have h9 : (c ≤ '9') ↔ c.toNat ≤ 57 := by
    rw [Char.le_def, UInt32.le_iff_toNat_le]; rfl
  rw [h0, h9]

theorem digit_eq (c : Char) : digit c = if '0' ≤ c ∧ c ≤ '9' then some (c.toNat - 48) else none := by
  unfold digit
  by_cases h : '0' ≤ c ∧ c ≤ '9'
  · rw [if_pos h]; exact if_pos ((digit_range c).1 h)
  · rw [if_neg h]; exact if_neg fun h' => h ((digit_range c).2 h')

theorem digit_isSome (c : Char) : (digit c).isSome = true ↔ '0' ≤ c ∧ c ≤ '9' := by
  rw [digit_eq]
  by_cases h : '0' ≤ c ∧ c ≤ '9'
  · rw [if_pos h]; exact ⟨fun _ => h, fun _ => rfl⟩
  · rw [if_neg h]; exact ⟨fun h' => (Bool.false_ne_true h').elim, fun h' => (h h').elim⟩

theorem isDigits_nil : IsDigits [] := fun _ h => (List.not_mem_nil h).elim

theorem isDigits_cons {c : Char} {s : List Char} : IsDigits (c :: s) ↔ ('0' ≤ c ∧ c ≤ '9') ∧ IsDigits s := by
  simp [IsDigits]

theorem isDigits_append {a b : List Char} : IsDigits (a ++ b) ↔ IsDigits a ∧ IsDigits b := by
  simp only [IsDigits, List.mem_append]
  exact ⟨fun h => ⟨fun c hc => h c (.inl hc), fun c hc => h c (.inr hc)⟩, fun h c hc => hc.elim (h.1 c) (h.2 c)⟩

theorem digitsNumber_nil : digitsNumber [] = 0 := rfl

theorem digitsNumber_concat (s : List Char) (c : Char) :
    digitsNumber (s ++ [c]) = digitsNumber s * 10 + (c.toNat - 48) := by
  unfold digitsNumber
  rw [List.reverse_append, List.reverse_singleton, List.singleton_append, List.map_cons, Nat.ofDigits_cons]
  ring

theorem digitsNumber_append (a b : List Char) :
    digitsNumber (a ++ b) = digitsNumber a * 10 ^ b.length + digitsNumber b := by
  unfold digitsNumber
  rw [List.reverse_append, List.map_append, Nat.ofDigits_append, List.length_map, List.length_reverse]
  ring

theorem digitsNumber_cons (c : Char) (s : List Char) :
    digitsNumber (c :: s) = (c.toNat - 48) * 10 ^ s.length + digitsNumber s := by
  have := digitsNumber_append [c] s
  rw [List.singleton_append] at this
  rw [this]
  congr 2

theorem digitsValue_eq {s : List Char} (h : IsDigits s) : digitsValue s = digitsNumber s := by
  induction s using List.reverseRecOn with
  | nil => rfl
  | append_singleton s c ih =>
    obtain ⟨h1, h2⟩ := isDigits_append.1 h
    unfold digitsValue at ih ⊢
    rw [List.foldl_append, ih h1, List.foldl_cons, List.foldl_nil, digitsNumber_concat, digit_eq,
      if_pos (isDigits_cons.1 h2).1]
    rfl

theorem replicate_zero_number (k : Nat) : digitsNumber (List.replicate k '0') = 0 := by
  induction k with
  | zero => rfl
  | succ k ih => rw [List.replicate_succ, digitsNumber_cons, ih]; simp

/-! ## Integers -/

theorem prim_zero (p : Prim) : p.lo ≤ 0 ∧ 0 ≤ p.hi := by cases p <;> decide

theorem digitsLoop_pos (p : Prim) (z : Int) : ∀ (s : List Char) (acc : Nat),
    digitsLoop p false s acc = some z ↔
      IsDigits s ∧ z = (acc * 10 ^ s.length + digitsNumber s : Nat) ∧ ((s = []) ∨ z ≤ p.hi) := by
  intro s
  induction s with
  | nil =>
    intro acc
    simp only [digitsLoop, List.length_nil, Nat.pow_zero, Nat.mul_one, digitsNumber_nil, Nat.add_zero,
      Option.some.injEq]
    exact ⟨fun h => ⟨isDigits_nil, h.symm, .inl trivial⟩, fun h => h.2.1.symm⟩
  | cons c s ih =>
    intro acc
    rw [isDigits_cons, digitsNumber_cons]
    unfold digitsLoop
    rw [digit_eq]
    by_cases hc : '0' ≤ c ∧ c ≤ '9'
    · rw [if_pos hc]
      simp only [Bool.false_eq_true, if_false]
      generalize c.toNat - 48 = d
      have hcast : (acc : Int) * 10 + (d : Int) = ((acc * 10 + d : Nat) : Int) := by push_cast; ring
      have hrw : acc * 10 ^ (s.length + 1) + (d * 10 ^ s.length + digitsNumber s)
          = (acc * 10 + d) * 10 ^ s.length + digitsNumber s := by ring
      rw [List.length_cons, hrw, hcast]
      obtain ⟨hlo, hhi⟩ := prim_zero p
      by_cases hr : p.lo ≤ (acc : Int) * 10 ∧ (acc : Int) * 10 ≤ p.hi ∧ p.lo ≤ ((acc * 10 + d : Nat) : Int) ∧
          ((acc * 10 + d : Nat) : Int) ≤ p.hi
      · rw [if_pos hr, ih]
        constructor
        · rintro ⟨h1, h2, h3⟩
          refine ⟨⟨hc, h1⟩, h2, .inr ?_⟩
          rcases h3 with rfl | h3
          · rw [h2]; simpa [digitsNumber_nil] using hr.2.2.2
          · exact h3
        · rintro ⟨⟨_, h1⟩, h2, h3⟩
          exact ⟨h1, h2, .inr (h3.resolve_left (by simp))⟩
      · rw [if_neg hr]
        constructor
        · intro h; exact absurd h (by simp)
        · rintro ⟨_, h2, h3⟩
          exfalso
          apply hr
          have h3 := h3.resolve_left (by simp)
          have hge : acc * 10 + d ≤ (acc * 10 + d) * 10 ^ s.length + digitsNumber s := by
            have := Nat.le_mul_of_pos_right (acc * 10 + d) (Nat.pow_pos (n := s.length) (show 0 < 10 by omega))
            omega
          omega
    · rw [if_neg hc]
      exact ⟨fun h => absurd h (by simp), fun h => (hc h.1.1).elim⟩

theorem digitsLoop_neg (p : Prim) (z : Int) : ∀ (s : List Char) (acc : Nat),
    digitsLoop p true s (-(acc : Int)) = some z ↔
      IsDigits s ∧ z = -((acc * 10 ^ s.length + digitsNumber s : Nat) : Int) ∧ ((s = []) ∨ p.lo ≤ z) := by
  intro s
  induction s with
  | nil =>
    intro acc
    simp only [digitsLoop, List.length_nil, Nat.pow_zero, Nat.mul_one, digitsNumber_nil, Nat.add_zero,
      Option.some.injEq]
    exact ⟨fun h => ⟨isDigits_nil, h.symm, .inl trivial⟩, fun h => h.2.1.symm⟩
  | cons c s ih =>
    intro acc
    rw [isDigits_cons, digitsNumber_cons]
    unfold digitsLoop
    rw [digit_eq]
    by_cases hc : '0' ≤ c ∧ c ≤ '9'
    · rw [if_pos hc]
      simp only [if_true]
      generalize c.toNat - 48 = d
      have hcast : -(acc : Int) * 10 - (d : Int) = -((acc * 10 + d : Nat) : Int) := by push_cast; ring
      have hrw : acc * 10 ^ (s.length + 1) + (d * 10 ^ s.length + digitsNumber s)
          = (acc * 10 + d) * 10 ^ s.length + digitsNumber s := by ring
      rw [List.length_cons, hrw, hcast]
      obtain ⟨hlo, hhi⟩ := prim_zero p
      by_cases hr : p.lo ≤ -(acc : Int) * 10 ∧ -(acc : Int) * 10 ≤ p.hi ∧ p.lo ≤ -((acc * 10 + d : Nat) : Int) ∧
          -((acc * 10 + d : Nat) : Int) ≤ p.hi
      · rw [if_pos hr, ih]
        constructor
        · rintro ⟨h1, h2, h3⟩
          refine ⟨⟨hc, h1⟩, h2, .inr ?_⟩
          rcases h3 with rfl | h3
          · rw [h2]; simpa [digitsNumber_nil] using hr.2.2.1
          · exact h3
        · rintro ⟨⟨_, h1⟩, h2, h3⟩
          exact ⟨h1, h2, .inr (h3.resolve_left (by simp))⟩
      · rw [if_neg hr]
        constructor
        · intro h; exact absurd h (by simp)
        · rintro ⟨_, h2, h3⟩
          exfalso
          apply hr
          have h3 := h3.resolve_left (by simp)
          have hge : acc * 10 + d ≤ (acc * 10 + d) * 10 ^ s.length + digitsNumber s := by
            have := Nat.le_mul_of_pos_right (acc * 10 + d) (Nat.pow_pos (n := s.length) (show 0 < 10 by omega))
            omega
          omega
    · rw [if_neg hc]
      exact ⟨fun h => absurd h (by simp), fun h => (hc h.1.1).elim⟩

theorem not_digits_of_head {c : Char} {s : List Char} (h : c.toNat < 48) : ¬ IsDigits (c :: s) := fun h' => by
  have := (digit_range c).1 (isDigits_cons.1 h').1
  omega

theorem plus_nat : '+'.toNat = 43 := rfl
theorem minus_nat : '-'.toNat = 45 := rfl
theorem point_nat : '.'.toNat = 46 := rfl

/-- Integers are parsed as specified. -/
theorem parseInt_iff (p : Prim) (s : List Char) (z : Int) : parseInt p s = some z ↔ IntegerText p s z := by
  obtain ⟨hlo, hhi⟩ := prim_zero p
  have hpos : ∀ t, digitsLoop p false t 0 = some z ↔ IsDigits t ∧ z = digitsNumber t ∧ (t = [] ∨ z ≤ p.hi) := fun t => by
    have := digitsLoop_pos p z t 0
    rw [Nat.zero_mul, Nat.zero_add] at this
    exact this
  have hneg : ∀ t, digitsLoop p true t 0 = some z ↔
      IsDigits t ∧ z = -(digitsNumber t : Int) ∧ (t = [] ∨ p.lo ≤ z) := fun t => by
    have := digitsLoop_neg p z t 0
    rw [Nat.zero_mul, Nat.zero_add] at this
    exact this
  cases s with
  | nil =>
    refine ⟨fun h => absurd h (by simp [parseInt]), ?_⟩
    rintro ⟨ds, h0, -, -, -, ⟨h1 | h1, -⟩ | ⟨-, h1, -⟩⟩
    · exact (h0 h1.symm).elim
    · exact absurd h1 (by simp)
    · exact absurd h1 (by simp)
  | cons c cs =>
    unfold parseInt
    by_cases h1 : (c = '+' ∨ c = '-') ∧ cs = []
    · simp only [if_pos h1]
      refine ⟨fun h => absurd h (by simp), ?_⟩
      rintro ⟨ds, h0, hd, -, -, ⟨h2 | h2, -⟩ | ⟨-, h2, -⟩⟩
      · obtain ⟨rfl | rfl, rfl⟩ := h1
        · exact (not_digits_of_head (by decide) (h2 ▸ hd)).elim
        · exact (not_digits_of_head (by decide) (h2 ▸ hd)).elim
      · exact (h0 (List.cons.inj h2 |>.2 ▸ h1.2)).elim
      · exact (h0 (List.cons.inj h2 |>.2 ▸ h1.2)).elim
    · simp only [if_neg h1]
      by_cases h2 : c = '+'
      · subst h2
        have hne : cs ≠ [] := fun h => h1 ⟨.inl rfl, h⟩
        rw [if_pos rfl, hpos]
        constructor
        · rintro ⟨a, b, d⟩
          exact ⟨cs, hne, a, by omega, d.resolve_left hne, .inl ⟨.inr rfl, b⟩⟩
        · rintro ⟨ds, h0, hd, -, hz, ⟨h3 | h3, hv⟩ | ⟨-, h3, -⟩⟩
          · exact (not_digits_of_head (by decide) (h3 ▸ hd)).elim
          · obtain rfl := (List.cons.inj h3).2
            exact ⟨hd, hv, .inr hz⟩
          · exact absurd (List.cons.inj h3).1 (by decide)
      · rw [if_neg h2]
        by_cases h3 : c = '-'
        · subst h3
          have hne : cs ≠ [] := fun h => h1 ⟨.inr rfl, h⟩
          by_cases h4 : signed p = true
          · rw [if_pos ⟨rfl, h4⟩, hneg]
            have h4 : p.lo < 0 := of_decide_eq_true h4
            constructor
            · rintro ⟨a, b, d⟩
              exact ⟨cs, hne, a, d.resolve_left hne, by omega, .inr ⟨h4, rfl, b⟩⟩
            · rintro ⟨ds, h0, hd, hz, -, ⟨h3 | h3, hv⟩ | ⟨-, h3, hv⟩⟩
              · exact (not_digits_of_head (by decide) (h3 ▸ hd)).elim
              · exact absurd (List.cons.inj h3).1 (by decide)
              · obtain rfl := (List.cons.inj h3).2
                exact ⟨hd, hv, .inr hz⟩
          · rw [if_neg fun h => h4 h.2, hpos]
            constructor
            · rintro ⟨a, -, -⟩
              exact (not_digits_of_head (by decide) a).elim
            · rintro ⟨ds, h0, hd, hz, -, ⟨h3 | h3, hv⟩ | ⟨h5, -, -⟩⟩
              · exact (not_digits_of_head (by decide) (h3 ▸ hd)).elim
              · exact absurd (List.cons.inj h3).1 (by decide)
              · exact (h4 (decide_eq_true h5)).elim
        · rw [if_neg fun h => h3 h.1, hpos]
          constructor
          · rintro ⟨a, b, d⟩
            exact ⟨c :: cs, by simp, a, by omega, d.resolve_left (by simp), .inl ⟨.inl rfl, b⟩⟩
          · rintro ⟨ds, h0, hd, -, hz, ⟨h5 | h5, hv⟩ | ⟨-, h5, -⟩⟩
            · exact ⟨h5 ▸ hd, h5 ▸ hv, .inr hz⟩
            · exact (h2 (List.cons.inj h5).1).elim
            · exact (h3 (List.cons.inj h5).1).elim

/-! ## Printing integers -/

theorem digitChar_range {d : Nat} (h : d < 10) : ('0' ≤ digitChar d ∧ digitChar d ≤ '9') ∧ (digitChar d).toNat - 48 = d := by
  have : ∀ d < 10, ('0' ≤ digitChar d ∧ digitChar d ≤ '9') ∧ (digitChar d).toNat - 48 = d := by decide
  exact this d h

theorem fixedDigits_length (k n : Nat) : (fixedDigits k n).length = k := by
  induction k generalizing n with
  | zero => rfl
  | succ k ih => rw [fixedDigits, List.length_append, ih]; rfl

theorem fixedDigits_digits (k n : Nat) : IsDigits (fixedDigits k n) := by
  induction k generalizing n with
  | zero => exact isDigits_nil
  | succ k ih =>
    rw [fixedDigits, isDigits_append]
    exact ⟨ih _, isDigits_cons.2 ⟨(digitChar_range (Nat.mod_lt _ (by omega))).1, isDigits_nil⟩⟩

theorem fixedDigits_number (k n : Nat) : digitsNumber (fixedDigits k n) = n % 10 ^ k := by
  induction k generalizing n with
  | zero => rw [Nat.pow_zero, Nat.mod_one]; rfl
  | succ k ih =>
    rw [fixedDigits, digitsNumber_concat, ih, (digitChar_range (Nat.mod_lt _ (by omega))).2, Nat.pow_succ', Nat.mod_mul]
    ring

theorem digitCount_spec : ∀ (fuel n : Nat), n ≤ fuel →
    n < 10 ^ digitCount fuel n ∧ 1 ≤ digitCount fuel n ∧ (digitCount fuel n = 1 ∨ 10 ^ (digitCount fuel n - 1) ≤ n) := by
  intro fuel
  induction fuel with
  | zero => intro n h; obtain rfl : n = 0 := by omega
            exact ⟨by decide, by decide, .inl rfl⟩
  | succ fuel ih =>
    intro n h
    unfold digitCount
    by_cases h10 : n < 10
    · rw [if_pos h10]; exact ⟨by omega, by omega, .inl rfl⟩
    · rw [if_neg h10]
      obtain ⟨h1, h2, h3⟩ := ih (n / 10) (by omega)
      refine ⟨by rw [Nat.pow_succ]; omega, by omega, .inr ?_⟩
      rw [Nat.add_sub_cancel]
      rcases h3 with h3 | h3
      · rw [h3]; omega
      · obtain ⟨j, hj⟩ : ∃ j, digitCount fuel (n / 10) = j + 1 := ⟨digitCount fuel (n / 10) - 1, by omega⟩
        rw [hj, Nat.add_sub_cancel] at h3
        rw [hj, Nat.pow_succ]
        omega

theorem fixedDigits_head (k n : Nat) : (fixedDigits (k + 1) n).head? = some (digitChar (n / 10 ^ k % 10)) := by
  induction k generalizing n with
  | zero => rw [Nat.pow_zero, Nat.div_one]; rfl
  | succ k ih =>
    rw [fixedDigits, List.head?_append, ih, Nat.div_div_eq_div_mul, ← Nat.pow_succ']
    rfl

theorem natText_spec (n : Nat) : natText n ≠ [] ∧ IsDigits (natText n) ∧ digitsNumber (natText n) = n ∧
    ((natText n).head? = some '0' → natText n = ['0']) := by
  obtain ⟨h1, h2, h3⟩ := digitCount_spec n n (Nat.le_refl n)
  unfold natText
  generalize digitCount n n = k at h1 h2 h3
  obtain ⟨j, rfl⟩ : ∃ j, k = j + 1 := ⟨k - 1, by omega⟩
  refine ⟨fun h => ?_, fixedDigits_digits _ _, by rw [fixedDigits_number, Nat.mod_eq_of_lt h1], fun h => ?_⟩
  · have := fixedDigits_length (j + 1) n
    rw [h] at this
    exact absurd this (by simp)
  · rw [fixedDigits_head] at h
    rw [Nat.add_sub_cancel] at h3
    have hd : n / 10 ^ j < 10 := by
      rw [Nat.pow_succ] at h1
      exact Nat.div_lt_of_lt_mul (by omega)
    rw [Nat.mod_eq_of_lt hd] at h
    have h0 : n / 10 ^ j = 0 := by
      have := (digitChar_range hd).2
      rw [Option.some.inj h, show '0'.toNat = 48 from rfl] at this
      omega
    rcases h3 with h3 | h3
    · obtain rfl : j = 0 := by omega
      rw [Nat.pow_zero, Nat.div_one] at h0
      subst h0
      rfl
    · have := Nat.div_pos h3 (Nat.pow_pos (by omega))
      omega

theorem intText_plain (z : Int) : PlainInteger (intText z) z := by
  obtain ⟨h1, h2, h3, h4⟩ := natText_spec z.natAbs
  refine ⟨natText z.natAbs, h1, h2, h4, ?_⟩
  unfold intText
  by_cases h : z < 0
  · rw [if_pos h, h3]; exact .inr ⟨rfl, by omega, by omega⟩
  · rw [if_neg h, h3]; exact .inl ⟨rfl, by omega⟩

end Pasture.Ascii
