import Verif.Model.Bits
import Mathlib.Tactic.IntervalCases

/-!
# Property C33: bit manipulation
-/

namespace Pasture.Props

/-- C33: bit `i` of the low 21 bits goes to bit `3 i`; every other bit is 0. -/
theorem C33_expand_bits (v : BitVec 64) (i : Nat) (hi : i < 64) :
    (expandBitsBy3 v).getLsbD i = (decide (i % 3 = 0) && decide (i / 3 < 21) && v.getLsbD (i / 3)) := by
  unfold expandBitsBy3
  interval_cases i <;> simp

/-- Three expanded numbers, interleaved as a Morton index. -/
def interleaved (x y z : BitVec 64) : BitVec 64 :=
  expandBitsBy3 x ||| (expandBitsBy3 y <<< 1) ||| (expandBitsBy3 z <<< 2)

/-- C33: interleaving three 21-bit coordinates loses nothing: bit `3 i`, `3 i + 1` and `3 i + 2` of the
    Morton index are bit `i` of the three coordinates. -/
theorem C33_interleaving (x y z : BitVec 64) (i : Nat) (hi : i < 21) :
    (interleaved x y z).getLsbD (3 * i) = x.getLsbD i ∧
    (interleaved x y z).getLsbD (3 * i + 1) = y.getLsbD i ∧
    (interleaved x y z).getLsbD (3 * i + 2) = z.getLsbD i := by
  unfold interleaved
  have e : ∀ (v : BitVec 64) (j : Nat), j < 64 → (expandBitsBy3 v).getLsbD j =
      (decide (j % 3 = 0) && decide (j / 3 < 21) && v.getLsbD (j / 3)) := fun v j hj => C33_expand_bits v j hj
  simp only [BitVec.getLsbD_or, BitVec.getLsbD_shiftLeft]
  refine ⟨?_, ?_, ?_⟩
  · by_cases h0 : i = 0
    · subst h0
      have := e x 0 (by omega)
      simp only [Nat.mul_zero] at *
      rw [this]
      simp
    · have h1 : 3 * i - 1 < 64 := by omega
      have h2 : 3 * i - 2 < 64 := by omega
      have h3 : 3 * i < 64 := by omega
      rw [e _ _ h1, e _ _ h2, e _ _ h3]
      have a1 : (3 * i - 1) % 3 ≠ 0 := by omega
      have a2 : (3 * i - 2) % 3 ≠ 0 := by omega
      have a3 : 3 * i % 3 = 0 := by omega
      have a4 : 3 * i / 3 = i := by omega
      simp [a1, a2, hi]
  · have h1 : 3 * i + 1 < 64 := by omega
    have h2 : 3 * i + 1 - 1 = 3 * i := by omega
    have h3 : 3 * i < 64 := by omega
    rw [h2, e _ _ h1, e _ _ h3]
    by_cases h0 : i = 0
    · subst h0; simp
    · have h4 : 3 * i + 1 - 2 < 64 := by omega
      rw [e _ _ h4]
      rw [decide_eq_false (show ¬ (3 * i + 1) % 3 = 0 by omega),
        decide_eq_false (show ¬ (3 * i + 1 - 2) % 3 = 0 by omega)]
      simp [hi, h1]
  · have h1 : 3 * i + 2 < 64 := by omega
    have h2 : 3 * i + 2 - 2 = 3 * i := by omega
    have h2' : 3 * i + 2 - 1 = 3 * i + 1 := by omega
    have h3 : 3 * i < 64 := by omega
    have h4 : 3 * i + 1 < 64 := by omega
    rw [h2, h2', e _ _ h1, e _ _ h3, e _ _ h4]
    simp [hi, h1]

theorem lookup_bits : ∀ b : Fin 256, ∀ j : Fin 8,
    (reverseBitsLookup[b.val]?.getD 0).testBit j.val = b.val.testBit (7 - j.val) ∧
    (reverseBitsLookup[b.val]?.getD 0) < 256 := by decide +kernel

theorem reverseByte_bits (w : BitVec 64) (j : Nat) :
    (reverseByte (w &&& 0xFF)).getLsbD j = (decide (j < 8) && w.getLsbD (7 - j)) := by
  have hb : (w &&& 0xFF).toNat = w.toNat % 256 := by
    rw [BitVec.toNat_and]
    exact Nat.and_two_pow_sub_one_eq_mod w.toNat 8
  have hlt : w.toNat % 256 < 256 := Nat.mod_lt _ (by omega)
  unfold reverseByte
  rw [hb, BitVec.getLsbD_ofNat]
  by_cases hj : j < 8
  · have := (lookup_bits ⟨w.toNat % 256, hlt⟩ ⟨j, hj⟩).1
    dsimp only at this
    rw [this, decide_eq_true hj, decide_eq_true (show j < 64 by omega)]
    rw [show (256 : Nat) = 2 ^ 8 from rfl, Nat.testBit_mod_two_pow]
    rw [decide_eq_true (show 7 - j < 8 by omega)]
    simp [BitVec.testBit_toNat]
  · have h2 := (lookup_bits ⟨w.toNat % 256, hlt⟩ 0).2
    dsimp only at h2
    rw [decide_eq_false hj, Nat.testBit_lt_two_pow]
    · simp
    · calc _ < 256 := h2
        _ = 2 ^ 8 := rfl
        _ ≤ 2 ^ j := Nat.pow_le_pow_right (by omega) (by omega)

/-- C33: `reverse_bits` exchanges bit `i` and bit `63 - i`. -/
theorem C33_reverse_bits (v : BitVec 64) (i : Nat) (hi : i < 64) :
    (reverseBits v).getLsbD i = v.getLsbD (63 - i) := by
  unfold reverseBits
  simp only [BitVec.getLsbD_or, BitVec.getLsbD_shiftLeft, reverseByte_bits, BitVec.getLsbD_ushiftRight]
  interval_cases i <;> simp

/-- C33: `reverse_bits` is an involution. -/
theorem C33_reverse_involution (v : BitVec 64) : reverseBits (reverseBits v) = v := by
  apply BitVec.eq_of_getLsbD_eq
  intro i hi
  rw [C33_reverse_bits _ i hi, C33_reverse_bits _ (63 - i) (by omega)]
  congr 1
  omega

example : expandBitsBy3 0x1FFFFF = 0x1249249249249249 ∧ expandBitsBy3 5 = 65 ∧
    reverseBits 1 = 0x8000000000000000 ∧ reverseBits 0xF0 = 0x0F00000000000000 := by decide

end Pasture.Props
