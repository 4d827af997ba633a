import Verif.Model.Layout
import Verif.Spec.Layout

/-! # Arithmetic lemmas: `alignTo`, powers of two, placement -/

namespace Pasture
open Spec

theorem isPow2_iff (a : Nat) : isPow2 a = true ↔ ∃ k, a = 2 ^ k := by
  unfold isPow2
  constructor
  · intro h; exact ⟨a.log2, (of_decide_eq_true h).symm⟩
  · rintro ⟨k, rfl⟩; simp [Nat.log2_two_pow]

theorem le_alignTo (x a : Nat) : x ≤ alignTo x a := by
  unfold alignTo
  split
  · omega
  · have h1 := Nat.div_add_mod (x + a - 1) a
    have h2 := Nat.mod_lt (x + a - 1) (show a > 0 by omega)
    rw [Nat.mul_comm a] at h1
    omega

theorem dvd_alignTo (x a : Nat) (ha : 0 < a) : a ∣ alignTo x a := by
  unfold alignTo
  rw [if_neg (by omega)]
  exact Nat.dvd_mul_left _ _

theorem alignTo_least (x a r : Nat) (ha : 0 < a) (hd : a ∣ r) (hx : x ≤ r) : alignTo x a ≤ r := by
  obtain ⟨k, rfl⟩ := hd
  unfold alignTo
  rw [if_neg (by omega), Nat.mul_comm a k]
  apply Nat.mul_le_mul_right
  have : x + a - 1 < (k + 1) * a := by
    rw [Nat.add_mul, Nat.one_mul, Nat.mul_comm k a]; omega
  have := (Nat.div_lt_iff_lt_mul ha).2 this
  omega

theorem alignTo_isLeast (x a : Nat) (ha : 0 < a) : IsLeastMultiple x a (alignTo x a) :=
  ⟨dvd_alignTo x a ha, le_alignTo x a, fun r hd hx => alignTo_least x a r ha hd hx⟩

theorem isLeast_unique {x a r s : Nat} (h : IsLeastMultiple x a r) (h' : IsLeastMultiple x a s) :
    r = s :=
  Nat.le_antisymm (h.2.2 _ h'.1 h'.2.1) (h'.2.2 _ h.1 h.2.1)

theorem isLeast_iff_alignTo {x a r : Nat} (ha : 0 < a) : IsLeastMultiple x a r ↔ r = alignTo x a :=
  ⟨fun h => isLeast_unique h (alignTo_isLeast x a ha), fun h => h ▸ alignTo_isLeast x a ha⟩

theorem pow2_dvd_of_le {i j : Nat} (h : (2:Nat) ^ i ≤ 2 ^ j) : (2:Nat) ^ i ∣ 2 ^ j :=
  Nat.pow_dvd_pow 2 ((Nat.pow_le_pow_iff_right (by decide)).1 h)

theorem pow2_pos {a : Nat} (h : ∃ k, a = 2 ^ k) : 0 < a := by
  obtain ⟨k, rfl⟩ := h; exact Nat.two_pow_pos k

/-- Rounding in two steps with growing powers of two is rounding once. -/
theorem alignTo_max_alignTo {x y a b : Nat} (hab : a ∣ b) (ha : 0 < a) (hb : 0 < b) (hxy : x ≤ y) :
    alignTo (max (alignTo x a) y) b = alignTo y b := by
  apply Nat.le_antisymm
  · apply alignTo_least _ _ _ hb (dvd_alignTo _ _ hb)
    have h1 : alignTo x a ≤ alignTo y b :=
      alignTo_least _ _ _ ha (Nat.dvd_trans hab (dvd_alignTo _ _ hb))
        (Nat.le_trans hxy (le_alignTo _ _))
    have h2 := le_alignTo y b
    omega
  · apply alignTo_least _ _ _ hb (dvd_alignTo _ _ hb)
    have := le_alignTo (max (alignTo x a) y) b
    omega

theorem Spec.Placed.snoc {e e' off : Nat} {fs : List Field} {offs : List Nat} {f : Field}
    (h : Placed e fs offs e') (ho : IsLeastMultiple e' f.align off) :
    Placed e (fs ++ [f]) (offs ++ [off]) (off + f.size) := by
  induction h with
  | nil e => exact .cons ho (.nil _)
  | cons h1 _ ih => exact .cons h1 (ih ho)

theorem Spec.Placed.unique {e e1 e2 : Nat} {fs : List Field} {o1 o2 : List Nat}
    (h1 : Placed e fs o1 e1) (h2 : Placed e fs o2 e2) : o1 = o2 ∧ e1 = e2 := by
  induction h1 generalizing o2 e2 with
  | nil => cases h2; exact ⟨rfl, rfl⟩
  | cons a _ ih =>
    cases h2 with
    | cons a' b' =>
      obtain rfl := isLeast_unique a a'
      obtain ⟨rfl, rfl⟩ := ih b'
      exact ⟨rfl, rfl⟩

theorem Spec.IsMaxAlign.unique {fs : List Field} {a b : Nat} (h : IsMaxAlign fs a)
    (h' : IsMaxAlign fs b) : a = b := by
  obtain ⟨h1, h2, h3⟩ := h
  obtain ⟨h1', h2', h3'⟩ := h'
  apply Nat.le_antisymm
  · rcases h3 with rfl | ⟨f, hf, rfl⟩
    · exact h1'
    · exact h2' f hf
  · rcases h3' with rfl | ⟨f, hf, rfl⟩
    · exact h1
    · exact h2 f hf

theorem Spec.IsMaxAlign.snoc {fs : List Field} {a : Nat} (f : Field) (h : IsMaxAlign fs a) :
    IsMaxAlign (fs ++ [f]) (max a f.align) := by
  obtain ⟨h1, h2, h3⟩ := h
  refine ⟨by omega, ?_, ?_⟩
  · intro g hg
    rcases List.mem_append.1 hg with hg | hg
    · have := h2 g hg; omega
    · simp at hg; subst hg; omega
  · by_cases hle : f.align ≤ a
    · rw [Nat.max_eq_left hle]
      rcases h3 with h | ⟨g, hg, hga⟩
      · exact .inl h
      · exact .inr ⟨g, List.mem_append_left _ hg, hga⟩
    · exact .inr ⟨f, by simp, by omega⟩

theorem Spec.Placed.exists (e : Nat) (fs : List Field) (h : ∀ f ∈ fs, 0 < f.align) :
    ∃ offs e', Placed e fs offs e' := by
  induction fs generalizing e with
  | nil => exact ⟨[], e, .nil e⟩
  | cons f fs ih =>
    obtain ⟨o, e', h'⟩ := ih (alignTo e f.align + f.size) (fun g hg => h g (List.mem_cons_of_mem _ hg))
    exact ⟨_, _, .cons (alignTo_isLeast _ _ (h f (by simp))) h'⟩

/-- Field layout is unique. -/
theorem Spec.StructLayout.unique {fs : List Field} {o o' : List Nat} {s s' a a' : Nat}
    (h : StructLayout fs o s a) (h' : StructLayout fs o' s' a') : o = o' ∧ s = s' ∧ a = a' := by
  obtain ⟨e, p, m, l⟩ := h
  obtain ⟨e', p', m', l'⟩ := h'
  obtain ⟨rfl, rfl⟩ := p.unique p'
  obtain rfl := m.unique m'
  exact ⟨rfl, isLeast_unique l l', rfl⟩

end Pasture
