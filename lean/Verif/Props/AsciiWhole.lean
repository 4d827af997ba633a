import Verif.Props.Ascii

/-!
# C53 without decimal places
-/

namespace Pasture.Props

open Spec Spec.Ascii Pasture.Ascii

theorem trimLoop_length (s : List Char) : (trimLoop s).length ≤ s.length := by
  induction s with
  | nil => exact Nat.le_refl _
  | cons c cs ih =>
    unfold trimLoop
    split
    · exact Nat.le_succ_of_le ih
    · exact Nat.le_refl _

/-- Without a decimal point, a zero at the end is always lost. -/
theorem trimZeros_whole {s : List Char} (h : '.' ∉ s) : trimZeros s = s ↔ s.getLast? ≠ some '0' := by
  constructor
  · intro he hl
    rw [← List.head?_reverse] at hl
    cases hr : s.reverse with
    | nil => rw [hr] at hl; cases hl
    | cons c cs =>
      rw [hr] at hl
      cases hl
      have hne : cs.head? ≠ some '.' := by
        intro hd
        have : '.' ∈ s.reverse := by rw [hr]; exact List.mem_cons_of_mem _ (List.mem_of_mem_head? hd)
        exact h (List.mem_reverse.1 this)
      unfold trimZeros at he
      rw [hr, trimLoop, if_pos ⟨rfl, hne⟩] at he
      have h1 := congrArg List.length he
      have h2 := trimLoop_length cs
      have h3 := congrArg List.length hr
      simp only [List.length_reverse, List.length_cons] at h1 h3
      omega
  · exact trimZeros_other s

theorem whole_text (neg : Bool) {int : List Char} (h1 : IsDigits int) (h2 : int ≠ []) :
    DecimalText ((if neg then ['-'] else []) ++ int) neg (if neg then -(digitsNumber int : ℚ) else digitsNumber int) := by
  refine ⟨int, (digitsNumber int : ℚ), ?_, ?_, by cases neg <;> rfl⟩
  · cases neg
    · refine .inr (.inr ⟨rfl, rfl, ?_, ?_⟩)
      all_goals
        cases int with
        | nil => exact absurd rfl h2
        | cons c cs =>
          have := (digit_range c).1 (isDigits_cons.1 h1).1
          intro hc
          simp only [List.head?_cons, Option.some.injEq] at hc
          subst hc
          revert this
          decide
    · exact .inl ⟨rfl, rfl⟩
  · exact ⟨int, [], [], 0, h1, (fun c hc => by cases hc), .inl h2, .inl ⟨rfl, rfl⟩, .inr ⟨rfl, by simp⟩, by simp⟩

theorem natText_last (n : Nat) : (natText n).getLast? = some '0' ↔ n % 10 = 0 := by
  have hne := (natText_spec n).1
  unfold natText at hne ⊢
  cases hk : digitCount n n with
  | zero => rw [hk] at hne; exact absurd rfl hne
  | succ k =>
    rw [fixedDigits, List.getLast?_append]
    simp only [List.getLast?_singleton, Option.some_or, Option.some.injEq]
    have h := (digitChar_range (Nat.mod_lt n (by decide : 0 < 10))).2
    constructor
    · intro h0
      rw [h0] at h
      exact h.symm
    · intro h0
      rw [h0]
      rfl

theorem trimZeros_zero {s : List Char} (h : '.' ∉ s) : trimZeros (s ++ ['0']) = trimZeros s := by
  have hd : s.reverse.head? ≠ some '.' := fun hd => h (List.mem_reverse.1 (List.mem_of_mem_head? hd))
  unfold trimZeros
  rw [List.reverse_append, List.reverse_singleton, List.singleton_append, trimLoop, if_pos ⟨rfl, hd⟩]

theorem digits_point {s : List Char} (h : IsDigits s) : '.' ∉ s := fun hm => absurd (h _ hm) (by decide)

/-- All zeros at the end are removed. -/
theorem trimZeros_int (neg : Bool) (int : List Char) : IsDigits int →
    ∃ k int', trimZeros ((if neg then ['-'] else []) ++ int) = (if neg then ['-'] else []) ++ int' ∧
      int = int' ++ List.replicate k '0' ∧ int'.getLast? ≠ some '0' := by
  induction int using List.reverseRecOn with
  | nil =>
    intro _
    exact ⟨0, [], by cases neg <;> rfl, rfl, by simp⟩
  | append_singleton s c ih =>
    intro hd
    have hs := (isDigits_append.1 hd).1
    by_cases hc : c = '0'
    · obtain ⟨k, int', h1, h2, h3⟩ := ih hs
      refine ⟨k + 1, int', ?_, ?_, h3⟩
      · rw [hc, ← List.append_assoc, trimZeros_zero, h1]
        intro hm
        rcases List.mem_append.1 hm with hm | hm
        · cases neg <;> simp at hm
        · exact digits_point hs hm
      · rw [hc, List.replicate_succ', ← List.append_assoc, ← h2]
    · refine ⟨0, s ++ [c], trimZeros_other _ ?_, by simp, by simpa using hc⟩
      rw [← List.append_assoc]
      simpa using hc

theorem last_digit {s : List Char} (hs : IsDigits s) (hne : s ≠ []) (h : s.getLast? ≠ some '0') : ¬ 10 ∣ digitsNumber s := by
  induction s using List.reverseRecOn with
  | nil => exact absurd rfl hne
  | append_singleton s c =>
    have hc := (digit_range c).1 ((isDigits_append.1 hs).2 c (by simp))
    have hc0 : c ≠ '0' := by simpa using h
    have hn : c.toNat ≠ 48 := fun h => hc0 (Char.toNat_inj.1 h)
    rw [digitsNumber_append]
    have : digitsNumber [c] = c.toNat - 48 := by simp [digitsNumber]
    rw [this, List.length_singleton, Nat.pow_one]
    omega

/-- **C53 in part**, without decimal places: a finite number is written as the integer next to it, but its zeros at the end are
    removed. So the text is right exactly if the integer is not a multiple of ten. Otherwise it is the text of the integer
    without its factors of ten, and for zero only the sign is left. -/
theorem C53_whole_partial (x : F64) (hx : x.isFinite = true) :
    ∃ n : Nat, abs ((n : ℚ) - abs (value x)) ≤ 1 / 2 ∧
      DecimalText (fixedText 0 x) x.neg (if x.neg then -(n : ℚ) else n) ∧
      (trimZeros (fixedText 0 x) = fixedText 0 x ↔ ¬ 10 ∣ n) ∧
      (n ≠ 0 → ∃ m k : Nat, n = m * 10 ^ k ∧ ¬ 10 ∣ m ∧
        DecimalText (trimZeros (fixedText 0 x)) x.neg (if x.neg then -(m : ℚ) else m)) ∧
      (n = 0 → trimZeros (fixedText 0 x) = if x.neg then ['-'] else []) := by
  obtain ⟨c1, c2⟩ := Flt.finite_cases hx
  have hclose := roundDiv_close (FloatFormat.f64.units x.mag * 10 ^ 0) FloatFormat.f64.one FloatFormat.one_pos
  unfold fixedText
  rw [if_neg (by rw [c1]; exact Bool.false_ne_true)]
  dsimp only
  rw [if_neg (by rw [c2]; exact Bool.false_ne_true), if_pos rfl, List.append_nil, Nat.pow_zero, Nat.mul_one, Nat.div_one]
  rw [Nat.pow_zero, Nat.mul_one, ← value_abs usable_f64] at hclose
  generalize roundDiv (FloatFormat.f64.units x.mag) FloatFormat.f64.one = n at hclose ⊢
  obtain ⟨i1, i2, i3, -⟩ := natText_spec n
  have htext := whole_text x.neg i2 i1
  rw [i3] at htext
  refine ⟨n, hclose, htext, ?_, fun hn => ?_, fun hn => ?_⟩
  · rw [trimZeros_whole, List.getLast?_append, Nat.dvd_iff_mod_eq_zero, ← natText_last]
    · cases hl : (natText n).getLast? with
      | none => exact absurd (List.getLast?_eq_none_iff.1 hl) i1
      | some c => rfl
    · intro hm
      rcases List.mem_append.1 hm with hm | hm
      · cases hneg : x.neg <;> simp [hneg] at hm
      · exact digits_point i2 hm
  · obtain ⟨k, int', h1, h2, h3⟩ := trimZeros_int x.neg (natText n) i2
    have hd : IsDigits int' := by rw [h2] at i2; exact (isDigits_append.1 i2).1
    have hnum : n = digitsNumber int' * 10 ^ k := by
      have := i3
      rw [h2, digitsNumber_append, replicate_zero_number, List.length_replicate, Nat.add_zero] at this
      exact this.symm
    have hne : int' ≠ [] := by
      rintro rfl
      apply hn
      rw [hnum]
      simp [digitsNumber]
    exact ⟨digitsNumber int', k, hnum, last_digit hd hne h3, h1 ▸ whole_text x.neg hd hne⟩
  · subst hn
    cases x.neg <;> rfl

/-- 12 keeps its text, and 120 does not. -/
example : (Flt.ofInt .f64 12).isFinite = true ∧ trimZeros (fixedText 0 (Flt.ofInt .f64 12)) = "12".toList ∧
    (Flt.ofInt .f64 120).isFinite = true ∧ trimZeros (fixedText 0 (Flt.ofInt .f64 120)) = "12".toList := by
  decide +kernel

end Pasture.Props
