import Verif.Lemmas.HullStep

/-! # All iterations for points in general position -/

namespace Pasture.Hull

open Spec

variable {α : Type} [Arith α] {look : Nat → Out (P3 α)} {Q : Nat → P3 α} {R : Nat → P3 ℝ} {n : Nat}

/-- The two triangles of the first three points. -/
theorem start_mesh {v1 v2 : P3 α} (h1 : Rep Q R n ⟨0, 1, 2, v1⟩) (h2 : Rep Q R n ⟨0, 2, 1, v2⟩) :
    Mesh Q R n 3 [⟨0, 1, 2, v1⟩, ⟨0, 2, 1, v2⟩] := by
  refine ⟨by simp, ?_, ?_, by simp [dedges], ?_, ?_⟩
  · intro t ht
    simp only [List.mem_cons, List.not_mem_nil, or_false] at ht
    rcases ht with rfl | rfl <;> exact ⟨by simp, by simp, by simp, by simp, by simp, by simp⟩
  · intro t ht
    simp only [List.mem_cons, List.not_mem_nil, or_false] at ht
    rcases ht with rfl | rfl
    · exact h1
    · exact h2
  · intro e he
    simp [dedges] at he ⊢
    rcases he with rfl | rfl | rfl | rfl | rfl | rfl <;> simp [Edge.rev]
  · intro t ht q hq
    simp only [List.mem_cons, List.not_mem_nil, or_false] at ht
    apply le_of_eq
    rcases ht with rfl | rfl
    all_goals
      obtain rfl | rfl | rfl : q = 0 ∨ q = 1 ∨ q = 2 := by omega
      all_goals simp only [vol, volume]; ring

/-- The loop of `create_convex_hull`. -/
theorem loop_mesh (hX : Exact look Q R n) (order : List Edge → List Edge) (horder : ∀ es, (order es).Perm es)
    (points : List (P3 α)) (hlen : points.length = n) (hp : ∀ i (hi : i < points.length), points[i] = Q i) :
    ∀ k, 3 ≤ k → k ≤ n →
    ∃ ts, forLoop (((List.range points.length).zip points).take k) [] (iteration order look) = .ok ts ∧ Mesh Q R n k ts := by
  have hget : ∀ i, i < n → ((List.range points.length).zip points)[i]? = some (i, Q i) := by
    intro i hi
    rw [List.getElem?_eq_getElem (by simp; omega)]
    simp [hp i (by omega)]
  intro k hk
  induction k, hk using Nat.le_induction with
  | base =>
    intro hn
    obtain ⟨v1, v2, e, r1, r2⟩ := hX.first (Q 0)
    refine ⟨_, ?_, start_mesh r1 r2⟩
    rw [List.take_add_one, List.take_add_one, List.take_add_one, hget 0 (by omega), hget 1 (by omega), hget 2 (by omega)]
    simp only [List.take_zero, Option.toList, List.nil_append, List.cons_append, forLoop_cons, forLoop_nil]
    have i0 : iteration order look [] (0, Q 0) = .ok [⟨0, 0, 0, Q 0⟩] := rfl
    have i1 : iteration order look [⟨0, 0, 0, Q 0⟩] (1, Q 1) = .ok [⟨0, 1, 0, Q 0⟩] := rfl
    have i2 : iteration order look [⟨0, 1, 0, Q 0⟩] (2, Q 2) = .ok [⟨0, 1, 2, v1⟩, ⟨0, 2, 1, v2⟩] := e
    rw [i0]; simp only [Except.bind]
    rw [i1]; simp only
    rw [i2]
  | succ k hk ih =>
    intro hn
    obtain ⟨ts, h1, h2⟩ := ih (by omega)
    obtain ⟨ts', h3, h4⟩ := step_mesh hX (k := k) (by omega) (by omega) order horder h2
    refine ⟨ts', ?_, h4⟩
    rw [List.take_add_one, hget k (by omega), forLoop_append, h1]
    simp only [Except.bind, Option.toList, forLoop_cons, forLoop_nil, h3]

end Pasture.Hull
