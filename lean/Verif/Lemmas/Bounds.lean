import Verif.Spec.Bounds
import Verif.Lemmas.ViewsShow
import Verif.Lemmas.BufferConvert

/-!
# Lemmas about minima, maxima and boxes
-/

namespace Pasture

open Spec AABB

theorem ordered_int : Ordered Int fun _ => True where
  refl a _ := by simp [Cmp.le]
  trans a b c _ _ _ := by simp only [Cmp.le, decide_eq_true_eq]; omega
  total a b _ _ := by simp only [Cmp.le, decide_eq_true_eq]; omega
  lt_iff a b _ _ := by simp only [Cmp.le, Cmp.lt, decide_eq_true_eq]; omega

theorem ordered_flt (F : FloatFormat) : Ordered (Flt F) NotNaN where
  refl a h := by unfold NotNaN at h; simp [Cmp.le, Flt.le, h]
  trans a b c ha hb hc := by
    unfold NotNaN at ha hb hc
    simp only [Cmp.le, Flt.le, ha, hb, hc, Bool.not_false, Bool.true_and, decide_eq_true_eq]; omega
  total a b ha hb := by
    unfold NotNaN at ha hb
    simp only [Cmp.le, Flt.le, ha, hb, Bool.not_false, Bool.true_and, decide_eq_true_eq]; omega
  lt_iff a b ha hb := by
    unfold NotNaN at ha hb
    simp only [Cmp.le, Cmp.lt, Flt.le, Flt.lt, ha, hb, Bool.not_false, Bool.true_and, decide_eq_true_eq]; omega

theorem ordered_num (p : Prim) : Ordered Num (Ordinary p) where
  refl a h := by
    cases a with
    | int z => exact ordered_int.refl z trivial
    | single x => exact (ordered_flt _).refl x h.2
    | double x => exact (ordered_flt _).refl x h.2
  trans a b c ha hb hc := by
    cases a <;> cases b <;> cases c <;> simp only [Ordinary] at ha hb hc <;>
      first
      | exact ordered_int.trans _ _ _ trivial trivial trivial
      | exact (ordered_flt _).trans _ _ _ ha.2 hb.2 hc.2
      | (simp [Cmp.le])
  total a b ha hb := by
    cases a <;> cases b <;> simp only [Ordinary] at ha hb <;>
      first
      | exact ordered_int.total _ _ trivial trivial
      | exact (ordered_flt _).total _ _ ha.2 hb.2
      | (cases ha.1; cases hb.1)
      | (obtain ⟨rfl, _⟩ := ha; cases hb)
      | (obtain ⟨rfl, _⟩ := hb; cases ha)
  lt_iff a b ha hb := by
    cases a <;> cases b <;> simp only [Ordinary] at ha hb <;>
      first
      | exact ordered_int.lt_iff _ _ trivial trivial
      | exact (ordered_flt _).lt_iff _ _ ha.2 hb.2
      | (cases ha.1; cases hb.1)
      | (obtain ⟨rfl, _⟩ := ha; cases hb)
      | (obtain ⟨rfl, _⟩ := hb; cases ha)

section
variable {α : Type} [Cmp α] {good : α → Prop}

theorem smaller_cases (a b : α) : smaller a b = a ∨ smaller a b = b := by
  unfold smaller; by_cases h : Cmp.lt a b = true
  · rw [if_pos h]; exact Or.inl rfl
  · rw [if_neg h]; exact Or.inr rfl

theorem larger_cases (a b : α) : larger a b = a ∨ larger a b = b := by
  unfold larger; by_cases h : Cmp.lt b a = true
  · rw [if_pos h]; exact Or.inl rfl
  · rw [if_neg h]; exact Or.inr rfl

theorem smaller_good {a b : α} (ha : good a) (hb : good b) : good (smaller a b) := by
  rcases smaller_cases a b with h | h <;> rw [h] <;> assumption

theorem larger_good {a b : α} (ha : good a) (hb : good b) : good (larger a b) := by
  rcases larger_cases a b with h | h <;> rw [h] <;> assumption

theorem smaller_le (o : Ordered α good) {a b : α} (ha : good a) (hb : good b) :
    Cmp.le (smaller a b) a = true ∧ Cmp.le (smaller a b) b = true := by
  have h1 := o.total a b ha hb
  have h2 := o.lt_iff a b ha hb
  have h3 := o.refl a ha
  have h4 := o.refl b hb
  unfold smaller
  by_cases h : Cmp.lt a b = true
  · rw [if_pos h]; exact ⟨h3, h1.resolve_right (h2.1 h)⟩
  · rw [if_neg h]; exact ⟨Classical.byContradiction fun hc => h (h2.2 hc), h4⟩

theorem le_larger (o : Ordered α good) {a b : α} (ha : good a) (hb : good b) :
    Cmp.le a (larger a b) = true ∧ Cmp.le b (larger a b) = true := by
  have h1 := o.total a b ha hb
  have h2 := o.lt_iff b a hb ha
  have h3 := o.refl a ha
  have h4 := o.refl b hb
  unfold larger
  by_cases h : Cmp.lt b a = true
  · rw [if_pos h]; exact ⟨h3, h1.resolve_left (h2.1 h)⟩
  · rw [if_neg h]; exact ⟨Classical.byContradiction fun hc => h (h2.2 hc), h4⟩

theorem le_smaller {a b c : α} (ha : Cmp.le c a = true) (hb : Cmp.le c b = true) :
    Cmp.le c (smaller a b) = true := by
  rcases smaller_cases a b with h | h <;> rw [h] <;> assumption

theorem larger_le {a b c : α} (ha : Cmp.le a c = true) (hb : Cmp.le b c = true) :
    Cmp.le (larger a b) c = true := by
  rcases larger_cases a b with h | h <;> rw [h] <;> assumption

/-! Folds. `pick` is one of its arguments and below (or above) both. -/

/-- What folds need of `smaller` and, with the order turned around, of `larger`. -/
structure Picks (good : α → Prop) (le : α → α → Bool) (pick : α → α → α) : Prop where
  trans : ∀ a b c, good a → good b → good c → le a b = true → le b c = true → le a c = true
  refl : ∀ a, good a → le a a = true
  one : ∀ a b, pick a b = a ∨ pick a b = b
  below : ∀ a b, good a → good b → le (pick a b) a = true ∧ le (pick a b) b = true

theorem picks_smaller (o : Ordered α good) : Picks good Cmp.le (smaller (α := α)) :=
  ⟨o.trans, o.refl, smaller_cases, fun _ _ => smaller_le o⟩

theorem picks_larger (o : Ordered α good) : Picks good (fun a b => Cmp.le b a) (larger (α := α)) :=
  ⟨fun a b c ha hb hc h1 h2 => o.trans c b a hc hb ha h2 h1, o.refl, larger_cases,
    fun _ _ => le_larger o⟩

omit [Cmp α] in
theorem Picks.swap {le : α → α → Bool} {pick : α → α → α} (h : Picks good le pick) :
    Picks good le fun a b => pick b a :=
  ⟨h.trans, h.refl, fun a b => (h.one b a).symm, fun a b ha hb => (h.below b a hb ha).symm⟩

omit [Cmp α] in
theorem Picks.fold {le : α → α → Bool} {pick : α → α → α} (h : Picks good le pick) :
    ∀ (xs : List α) (a : α), good a → (∀ x ∈ xs, good x) →
      xs.foldl pick a ∈ a :: xs ∧ good (xs.foldl pick a) ∧ ∀ x ∈ a :: xs, le (xs.foldl pick a) x = true
  | [], a, ha, _ => ⟨by simp, ha, by simp [h.refl a ha]⟩
  | x :: xs, a, ha, hx => by
    have hgx := hx x (by simp)
    have hg : good (pick a x) := by rcases h.one a x with e | e <;> rw [e] <;> assumption
    obtain ⟨h1, h2, h3⟩ := h.fold xs (pick a x) hg fun y hy => hx y (by simp [hy])
    obtain ⟨b1, b2⟩ := h.below a x ha hgx
    rw [List.foldl_cons]
    refine ⟨?_, h2, ?_⟩
    · rcases List.mem_cons.1 h1 with e | e
      · rw [e]; rcases h.one a x with e | e <;> rw [e] <;> simp
      · simp [e]
    · have hp := h3 (pick a x) (by simp)
      intro y hy
      rcases List.mem_cons.1 hy with e | hy
      · subst e; exact h.trans _ _ _ h2 hg ha hp b1
      · rcases List.mem_cons.1 hy with e | hy
        · subst e; exact h.trans _ _ _ h2 hg hgx hp b2
        · exact h3 y (by simp [hy])

omit [Cmp α] in
/-- If the start value is not below all elements, the result is level with one of them. -/
theorem Picks.fold_attained {le : α → α → Bool} {pick : α → α → α} (h : Picks good le pick)
    (xs : List α) (a : α) (ha : good a) (hx : ∀ x ∈ xs, good x) (hs : ∃ x ∈ xs, le x a = true) :
    ∃ x ∈ xs, le x (xs.foldl pick a) = true := by
  obtain ⟨h1, h2, _⟩ := h.fold xs a ha hx
  rcases List.mem_cons.1 h1 with e | e
  · rw [e]; exact hs
  · exact ⟨_, e, h.refl _ h2⟩

end

theorem fromIterStep_fold : ∀ (ps : List (P3 F64)) (a b : P3 F64),
    ps.foldl fromIterStep (a, b) =
      (⟨(ps.map P3.x).foldl smaller a.x, (ps.map P3.y).foldl smaller a.y, (ps.map P3.z).foldl smaller a.z⟩,
       ⟨(ps.map P3.x).foldl larger b.x, (ps.map P3.y).foldl larger b.y, (ps.map P3.z).foldl larger b.z⟩)
  | [], _, _ => rfl
  | p :: ps, a, b => by
    rw [List.foldl_cons, fromIterStep, fromIterStep_fold ps]
    rfl

theorem boundsStep_fold : ∀ (ps : List (P3 F64)) (a b : P3 F64),
    ps.foldl boundsStep (a, b) =
      (⟨(ps.map P3.x).foldl (fun a b => smaller b a) a.x, (ps.map P3.y).foldl (fun a b => smaller b a) a.y,
        (ps.map P3.z).foldl (fun a b => smaller b a) a.z⟩,
       ⟨(ps.map P3.x).foldl (fun a b => larger b a) b.x, (ps.map P3.y).foldl (fun a b => larger b a) b.y,
        (ps.map P3.z).foldl (fun a b => larger b a) b.z⟩)
  | [], _, _ => rfl
  | p :: ps, a, b => by
    rw [List.foldl_cons, boundsStep, boundsStep_fold ps]
    rfl

end Pasture
