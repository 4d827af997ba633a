import Verif.Spec.Numbers
import Verif.Lemmas.FloatValue

/-! # Numbers in memory -/

namespace Pasture

open Spec

theorem leNat_eq (b : Bytes) : leNat b = littleEndian b := by
  unfold littleEndian
  induction b with
  | nil => rfl
  | cons x b ih => rw [List.map_cons, Nat.ofDigits_cons, leNat, ih]

theorem natLE_length (k n : Nat) : (natLE k n).length = k := by
  induction k generalizing n with
  | zero => rfl
  | succ k ih => simp [natLE, ih]

theorem leNat_lt (b : Bytes) : leNat b < 2 ^ (8 * b.length) := by
  induction b with
  | nil => simp [leNat]
  | cons x b ih =>
    have := x.isLt
    simp only [leNat, List.length_cons]
    rw [show 8 * (b.length + 1) = 8 * b.length + 8 by ring, Nat.pow_add]
    omega

theorem leNat_natLE (k n : Nat) : leNat (natLE k n) = n % 2 ^ (8 * k) := by
  induction k generalizing n with
  | zero => simp [natLE, leNat, Nat.mod_one]
  | succ k ih =>
    simp only [natLE, leNat, ih]
    rw [show 8 * (k + 1) = 8 + 8 * k by ring, Nat.pow_add, Nat.mod_mul]
    simp

theorem natLE_leNat (b : Bytes) : natLE b.length (leNat b) = b := by
  induction b with
  | nil => rfl
  | cons x b ih =>
    have := x.isLt
    simp only [leNat, List.length_cons, natLE]
    rw [show (x.toNat + 256 * leNat b) / 256 = leNat b by omega, ih]
    congr 1
    apply BitVec.eq_of_toNat_eq
    simp
    omega

theorem leNat_inj {a b : Bytes} (hl : a.length = b.length) (h : leNat a = leNat b) : a = b := by
  rw [← natLE_leNat a, ← natLE_leNat b, hl, h]

theorem prim_range (p : Prim) (hp : p.isInt = true) :
    p.hi - p.lo + 1 = 2 ^ (8 * p.size) ∧ 0 ≤ p.hi ∧ p.lo ≤ 0 := by
  cases p <;> first | (exact absurd hp (by decide)) | decide

theorem intOfBits_spec {p : Prim} (hp : p.isInt = true) {n : Nat} (hn : n < 2 ^ (8 * p.size)) :
    p.lo ≤ intOfBits p n ∧ intOfBits p n ≤ p.hi ∧
      intOfBits p n % 2 ^ (8 * p.size) = (n : Int) % 2 ^ (8 * p.size) := by
  obtain ⟨h1, h2, h3⟩ := prim_range p hp
  have hn' : (n : Int) < 2 ^ (8 * p.size) := by exact_mod_cast hn
  unfold intOfBits
  by_cases h : (n : Int) ≤ p.hi
  · rw [if_pos h]; omega
  · rw [if_neg h]
    refine ⟨by omega, by omega, ?_⟩
    rw [Int.sub_emod, Int.emod_self, Int.sub_zero, Int.emod_emod]

theorem range_unique {p : Prim} (hp : p.isInt = true) {x y : Int} (hx : p.lo ≤ x ∧ x ≤ p.hi)
    (hy : p.lo ≤ y ∧ y ≤ p.hi) (h : x % 2 ^ (8 * p.size) = y % 2 ^ (8 * p.size)) : x = y := by
  obtain ⟨h1, h2, h3⟩ := prim_range p hp
  have hd : (2 ^ (8 * p.size) : Int) ∣ x - y := Int.dvd_of_emod_eq_zero (Int.emod_eq_emod_iff_emod_sub_eq_zero.1 h)
  obtain ⟨c, hc⟩ := hd
  have hc0 : c = 0 := by
    generalize (2 ^ (8 * p.size) : Int) = P at *
    have hP : 0 < P := by omega
    by_contra hne
    rcases Int.lt_or_gt_of_ne hne with h | h
    · have : P * c ≤ -P := by nlinarith
      omega
    · have : P ≤ P * c := by nlinarith
      omega
  subst hc0
  omega

theorem readNum_int {p : Prim} (hp : p.isInt = true) (b : Bytes) : readNum p b = .int (intOfBits p (leNat b)) := by
  cases p <;> first | rfl | exact absurd hp (by decide)

theorem asNum_int {q : Prim} (hq : q.isInt = true) (z : Int) : asNum q (.int z) = .int (wrapInt q z) := by
  cases q <;> first | rfl | exact absurd hq (by decide)

theorem pow8_cast (k : Nat) : ((2 ^ (8 * k) : Nat) : Int) = 2 ^ (8 * k) := by push_cast; rfl

theorem holds_read {p : Prim} (hp : p.isInt = true) {b : Bytes} {z : Int} (h : Holds p b z) :
    readNum p b = .int z := by
  rw [readNum_int hp]
  have hb := leNat_lt b
  rw [h.length] at hb
  obtain ⟨h1, h2, h3⟩ := intOfBits_spec hp hb
  congr 1
  apply range_unique hp ⟨h1, h2⟩ h.range
  rw [h3, leNat_eq, h.bits]

theorem writeNum_length (p : Prim) (v : Num) : (writeNum p v).length = p.size := by
  cases v <;> exact natLE_length _ _

theorem holds_write {p : Prim} {z : Int} (hz : p.lo ≤ z ∧ z ≤ p.hi) : Holds p (writeNum p (.int z)) z where
  length := natLE_length _ _
  range := hz
  bits := by
    rw [← leNat_eq]
    unfold writeNum
    rw [leNat_natLE]
    have hpos : (0 : Int) < 2 ^ (8 * p.size) := by positivity
    have := Int.emod_nonneg z hpos.ne'
    have hlt := Int.emod_lt_of_pos z hpos
    push_cast
    rw [Int.toNat_of_nonneg this, Int.emod_emod, Int.emod_emod]

theorem wrapInt_spec {p : Prim} (hp : p.isInt = true) (z : Int) :
    p.lo ≤ wrapInt p z ∧ wrapInt p z ≤ p.hi ∧ wrapInt p z % 2 ^ (8 * p.size) = z % 2 ^ (8 * p.size) := by
  have hpos : (0 : Int) < 2 ^ (8 * p.size) := by positivity
  have h0 := Int.emod_nonneg z hpos.ne'
  have hlt := Int.emod_lt_of_pos z hpos
  have hn : (z % 2 ^ (8 * p.size)).toNat < 2 ^ (8 * p.size) := by
    zify
    rw [Int.toNat_of_nonneg h0]
    exact hlt
  obtain ⟨h1, h2, h3⟩ := intOfBits_spec hp hn
  refine ⟨h1, h2, ?_⟩
  unfold wrapInt
  rw [h3, Int.toNat_of_nonneg h0, Int.emod_emod]

/-- The bytes of an integer are determined by it. -/
theorem holds_bytes {p : Prim} {a b : Bytes} {z : Int} (ha : Holds p a z) (hb : Holds p b z) : a = b := by
  apply leNat_inj (by rw [ha.length, hb.length])
  have h1 := leNat_lt a
  have h2 := leNat_lt b
  rw [ha.length] at h1
  rw [hb.length] at h2
  have e : (leNat a : Int) % 2 ^ (8 * p.size) = (leNat b : Int) % 2 ^ (8 * p.size) := by
    rw [leNat_eq, leNat_eq, ha.bits, hb.bits]
  rw [← pow8_cast] at e
  rw [← Int.natCast_emod, ← Int.natCast_emod] at e
  have := Int.ofNat.inj e
  rwa [Nat.mod_eq_of_lt h1, Nat.mod_eq_of_lt h2] at this

/-- Every byte string of the right length holds an integer. -/
theorem holds_exists {p : Prim} (hp : p.isInt = true) {b : Bytes} (hb : b.length = p.size) : ∃ z, Holds p b z := by
  have h := leNat_lt b
  rw [hb] at h
  obtain ⟨h1, h2, h3⟩ := intOfBits_spec hp h
  exact ⟨_, hb, ⟨h1, h2⟩, by rw [← leNat_eq, h3]⟩

theorem holdsF32_read {b : Bytes} {x : F32} (h : HoldsF32 b x) : readNum .f32 b = .single x := by
  unfold readNum Flt.ofBits
  rw [leNat_eq, h.bits]
  have := h.range
  have e : 2 ^ (FloatFormat.f32.mantBits + FloatFormat.f32.expBits) = 2 ^ 31 := rfl
  rw [e]
  obtain ⟨neg, mag⟩ := x
  simp only at this ⊢
  congr 2
  · cases neg <;> simp <;> omega
  · cases neg <;> simp <;> omega

theorem holdsF64_read {b : Bytes} {x : F64} (h : HoldsF64 b x) : readNum .f64 b = .double x := by
  unfold readNum Flt.ofBits
  rw [leNat_eq, h.bits]
  have := h.range
  have e : 2 ^ (FloatFormat.f64.mantBits + FloatFormat.f64.expBits) = 2 ^ 63 := rfl
  rw [e]
  obtain ⟨neg, mag⟩ := x
  simp only at this ⊢
  congr 2
  · cases neg <;> simp <;> omega
  · cases neg <;> simp <;> omega

theorem holdsF32_write {x : F32} (h : x.mag < 2 ^ 31) : HoldsF32 (writeNum .f32 (.single x)) x where
  length := natLE_length _ _
  range := h
  bits := by
    rw [← leNat_eq]
    unfold writeNum
    rw [leNat_natLE]
    unfold Flt.toBits
    have e : 2 ^ (FloatFormat.f32.mantBits + FloatFormat.f32.expBits) = 2 ^ 31 := rfl
    have e2 : 8 * Prim.f32.size = 32 := rfl
    rw [e, e2]
    apply Nat.mod_eq_of_lt
    split <;> omega

theorem holdsF64_write {x : F64} (h : x.mag < 2 ^ 63) : HoldsF64 (writeNum .f64 (.double x)) x where
  length := natLE_length _ _
  range := h
  bits := by
    rw [← leNat_eq]
    unfold writeNum
    rw [leNat_natLE]
    unfold Flt.toBits
    have e : 2 ^ (FloatFormat.f64.mantBits + FloatFormat.f64.expBits) = 2 ^ 63 := rfl
    have e2 : 8 * Prim.f64.size = 64 := rfl
    rw [e, e2]
    apply Nat.mod_eq_of_lt
    split <;> omega

theorem holdsF32_exists {b : Bytes} (hb : b.length = 4) : ∃ x, HoldsF32 b x := by
  have h := leNat_lt b
  rw [hb] at h
  refine ⟨Flt.ofBits .f32 (leNat b), hb, ?_, ?_⟩
  · rw [← leNat_eq]
    unfold Flt.ofBits
    have e : 2 ^ (FloatFormat.f32.mantBits + FloatFormat.f32.expBits) = 2 ^ 31 := rfl
    rw [e]
    simp only [decide_eq_true_eq]
    split <;> omega
  · exact Nat.mod_lt _ (by decide)

theorem holdsF64_exists {b : Bytes} (hb : b.length = 8) : ∃ x, HoldsF64 b x := by
  have h := leNat_lt b
  rw [hb] at h
  refine ⟨Flt.ofBits .f64 (leNat b), hb, ?_, ?_⟩
  · rw [← leNat_eq]
    unfold Flt.ofBits
    have e : 2 ^ (FloatFormat.f64.mantBits + FloatFormat.f64.expBits) = 2 ^ 63 := rfl
    rw [e]
    simp only [decide_eq_true_eq]
    split <;> omega
  · exact Nat.mod_lt _ (by decide)

theorem holdsF32_bytes {a b : Bytes} {x : F32} (ha : HoldsF32 a x) (hb : HoldsF32 b x) : a = b := by
  apply leNat_inj (by rw [ha.length, hb.length])
  rw [leNat_eq, leNat_eq, ha.bits, hb.bits]

theorem holdsF64_bytes {a b : Bytes} {x : F64} (ha : HoldsF64 a x) (hb : HoldsF64 b x) : a = b := by
  apply leNat_inj (by rw [ha.length, hb.length])
  rw [leNat_eq, leNat_eq, ha.bits, hb.bits]

end Pasture
