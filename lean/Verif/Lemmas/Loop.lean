import Verif.Model.Basic

/-! # Reasoning about `forLoop` and `Out` -/

namespace Pasture

@[simp] theorem forLoop_nil {α σ : Type} (s : σ) (f : σ → α → Out σ) : forLoop [] s f = .ok s := rfl

@[simp] theorem forLoop_cons {α σ : Type} (x : α) (xs : List α) (s : σ) (f : σ → α → Out σ) :
    forLoop (x :: xs) s f = (f s x).bind (fun s' => forLoop xs s' f) := by
  unfold forLoop; rw [List.foldlM_cons]; rfl

theorem forLoop_cons_ok {α σ : Type} {x : α} {xs : List α} {s s' : σ} {f : σ → α → Out σ} :
    forLoop (x :: xs) s f = .ok s' ↔ ∃ t, f s x = .ok t ∧ forLoop xs t f = .ok s' := by
  rw [forLoop_cons]
  cases f s x <;> simp [Except.bind]

theorem forLoop_append {α σ : Type} (xs ys : List α) (s : σ) (f : σ → α → Out σ) :
    forLoop (xs ++ ys) s f = (forLoop xs s f).bind (fun s' => forLoop ys s' f) := by
  unfold forLoop; rw [List.foldlM_append]; rfl

/-- Partial correctness of a loop: an invariant indexed by the items processed so far. -/
theorem forLoop_inv {α σ : Type} {P : List α → σ → Prop} {f : σ → α → Out σ}
    (step : ∀ pre x s s', P pre s → f s x = .ok s' → P (pre ++ [x]) s') :
    ∀ (xs pre : List α) (s s' : σ), P pre s → forLoop xs s f = .ok s' → P (pre ++ xs) s' := by
  intro xs
  induction xs with
  | nil => intro pre s s' h0 h; simp at h; subst h; simpa using h0
  | cons x xs ih =>
    intro pre s s' h0 h
    obtain ⟨t, h1, h2⟩ := forLoop_cons_ok.1 h
    have := ih (pre ++ [x]) t s' (step _ _ _ _ h0 h1) h2
    simpa using this

/-- Total correctness of a loop. -/
theorem forLoop_total {α σ : Type} {P : List α → σ → Prop} {f : σ → α → Out σ} :
    ∀ (xs pre : List α) (s : σ), P pre s →
      (∀ pre' x suf s, pre ++ xs = pre' ++ x :: suf → P pre' s → ∃ s', f s x = .ok s' ∧ P (pre' ++ [x]) s') →
      ∃ s', forLoop xs s f = .ok s' ∧ P (pre ++ xs) s' := by
  intro xs
  induction xs with
  | nil => intro pre s h0 _; exact ⟨s, rfl, by simpa using h0⟩
  | cons x xs ih =>
    intro pre s h0 step
    obtain ⟨t, h1, h2⟩ := step pre x xs s rfl h0
    obtain ⟨s', h3, h4⟩ := ih (pre ++ [x]) t h2 (by
      intro pre' y suf s he hp
      exact step pre' y suf s (by simpa using he) hp)
    exact ⟨s', forLoop_cons_ok.2 ⟨t, h1, h3⟩, by simpa using h4⟩

/-- A loop fails only with a fault one of its steps produces. -/
theorem forLoop_fault {α σ : Type} {f : σ → α → Out σ} {e : Fault}
    (hf : ∀ s x e', f s x = .error e' → e' = e) :
    ∀ (xs : List α) (s : σ) (e' : Fault), forLoop xs s f = .error e' → e' = e := by
  intro xs
  induction xs with
  | nil => intro s e' h; simp at h
  | cons x xs ih =>
    intro s e' h
    rw [forLoop_cons] at h
    cases hx : f s x with
    | error e2 => rw [hx] at h; simp [Except.bind] at h; subst h; exact hf _ _ _ hx
    | ok t => rw [hx] at h; exact ih t e' h

end Pasture
