import Mathlib.Algebra.BigOperators.Group.List.Basic
import Mathlib.Data.List.Perm.Basic
import Verif.Lemmas.ConvexHull
import Verif.Lemmas.HullGeometry

/-! # The hull of points in general position is a closed mesh around the processed points -/

namespace Pasture.Hull

open Spec

/-- The edge in the opposite direction. -/
def Edge.rev (e : Edge) : Edge := ⟨e.b, e.a⟩

@[simp] theorem Edge.rev_rev (e : Edge) : e.rev.rev = e := rfl

theorem Edge.rev_inj {e f : Edge} (h : e.rev = f.rev) : e = f := by rw [← e.rev_rev, h, f.rev_rev]

theorem same_iff {e f : Edge} : e.same f = true ↔ e = f ∨ e = f.rev := by
  obtain ⟨a, b⟩ := e
  obtain ⟨c, d⟩ := f
  simp [Edge.same, Edge.rev]

theorem contains_iff {s : List Edge} {e : Edge} : edgeContains s e = true ↔ e ∈ s ∨ e.rev ∈ s := by
  unfold edgeContains
  rw [List.any_eq_true]
  constructor
  · rintro ⟨f, hf, hs⟩
    rcases same_iff.1 hs with rfl | rfl
    · exact .inl hf
    · exact .inr hf
  · rintro (h | h)
    · exact ⟨e, h, same_iff.2 (.inl rfl)⟩
    · exact ⟨e.rev, h, same_iff.2 (.inr rfl)⟩

/-- Adding edges one after another. -/
theorem toggle (L : List Edge) (hn : L.Nodup) (hloop : ∀ e ∈ L, e.a ≠ e.b) :
    let r := L.foldl (fun s e => addEdge e.a e.b s) ([], [])
    (∀ e, e ∈ r.1 ↔ e ∈ L ∧ e.rev ∉ L) ∧ r.1.Nodup ∧ (L ≠ [] → r.1 ≠ [] ∨ r.2 ≠ []) := by
  induction L using List.reverseRecOn with
  | nil => exact ⟨by simp, .nil, fun h => absurd rfl h⟩
  | append_singleton L e ih =>
    obtain ⟨h1, h2, h3⟩ := ih (List.nodup_append.1 hn).1 fun f hf => hloop f (List.mem_append_left _ hf)
    have he : e ∉ L := by
      intro hc
      exact (List.nodup_append.1 hn).2.2 e hc e (by simp) rfl
    have hne : e ≠ e.rev := by
      intro hc
      have := congrArg Edge.a hc
      exact hloop e (by simp) this
    intro r
    have hr : r = addEdge e.a e.b (L.foldl (fun s e => addEdge e.a e.b s) ([], [])) := by
      show (L ++ [e]).foldl _ _ = _
      rw [List.foldl_append]
      rfl
    generalize L.foldl (fun s e => addEdge e.a e.b s) ([], []) = s at h1 h2 h3 hr
    have hin : edgeContains s.1 e = true ↔ e.rev ∈ L := by
      rw [contains_iff, h1, h1, Edge.rev_rev]
      constructor
      · rintro (⟨h, _⟩ | ⟨h, _⟩)
        · exact absurd h he
        · exact h
      · exact fun h => .inr ⟨h, he⟩
    by_cases hc : e.rev ∈ L
    · have hval : r = (edgeRemove s.1 e, (edgeInsert s.2 e).1) := by
        rw [hr]
        have : edgeInsert s.1 ⟨e.a, e.b⟩ = (s.1, false) := if_pos (hin.2 hc)
        simp [addEdge, this]
      rw [hval]
      refine ⟨?_, h2.filter _, fun _ => .inr ?_⟩
      · intro f
        show f ∈ s.1.filter _ ↔ _
        rw [List.mem_filter, h1]
        simp only [Bool.not_eq_true', List.mem_append, List.mem_singleton]
        constructor
        · rintro ⟨⟨f1, f2⟩, f3⟩
          refine ⟨.inl f1, ?_⟩
          rintro (h | h)
          · exact f2 h
          · rw [same_iff.2 (.inr (by rw [← h, Edge.rev_rev]))] at f3
            cases f3
        · rintro ⟨f1, f2⟩
          have hfr : f.rev ∉ L := fun h => f2 (.inl h)
          have hfe : f ≠ e := by rintro rfl; exact hfr hc
          rcases f1 with f1 | f1
          · refine ⟨⟨f1, hfr⟩, ?_⟩
            rw [Bool.eq_false_iff]
            intro hs
            rcases same_iff.1 hs with h | h
            · exact hfe h
            · exact f2 (.inr (by rw [h, Edge.rev_rev]))
          · exact absurd f1 hfe
      · show (edgeInsert s.2 e).1 ≠ []
        unfold edgeInsert
        split
        · rename_i hh
          intro h0
          rw [show s.2 = [] from h0] at hh
          cases hh
        · simp
    · have hval : r = (s.1 ++ [e], s.2) := by
        rw [hr]
        have : edgeInsert s.1 ⟨e.a, e.b⟩ = (s.1 ++ [e], true) := if_neg fun h => hc (hin.1 h)
        simp [addEdge, this]
      rw [hval]
      refine ⟨?_, ?_, fun _ => .inl (by simp)⟩
      · intro f
        simp only [List.mem_append, List.mem_singleton, h1]
        constructor
        · rintro (⟨f1, f2⟩ | rfl)
          · refine ⟨.inl f1, ?_⟩
            rintro (h | h)
            · exact f2 h
            · exact hc (by rw [← h, Edge.rev_rev]; exact f1)
          · refine ⟨.inr rfl, ?_⟩
            rintro (h | h)
            · exact hc h
            · exact hne h.symm
        · rintro ⟨f1 | f1, f2⟩
          · exact .inl ⟨f1, fun h => f2 (.inl h)⟩
          · exact .inr f1
      · rw [List.nodup_append]
        refine ⟨h2, by simp, ?_⟩
        intro a ha b hb hab
        rw [List.mem_singleton.1 hb] at hab
        exact he ((h1 e).1 (hab ▸ ha)).1

variable {α : Type}

/-- The directed edges of a triangle. -/
def dedges (t : Tri α) : List Edge := [⟨t.a, t.b⟩, ⟨t.b, t.c⟩, ⟨t.c, t.a⟩]

/-- At each vertex as many edges of triangles begin as end. -/
theorem degrees (ts : List (Tri α)) (v : Nat) :
    (ts.flatMap dedges).countP (fun e => e.a == v) = (ts.flatMap dedges).countP (fun e => e.b == v) := by
  induction ts with
  | nil => rfl
  | cons t ts ih =>
    simp only [List.flatMap_cons, List.countP_append, ih]
    congr 1
    simp only [dedges, List.countP_cons, List.countP_nil]
    omega

theorem rev_perm {L : List Edge} (hn : L.Nodup) (hL : ∀ e ∈ L, e.rev ∈ L) : (L.map Edge.rev).Perm L := by
  rw [List.perm_ext_iff_of_nodup (hn.map fun _ _ h => Edge.rev_inj h) hn]
  intro e
  rw [List.mem_map]
  constructor
  · rintro ⟨f, hf, rfl⟩
    exact hL f hf
  · intro h
    exact ⟨e.rev, hL e h, rfl⟩

/-- Edges without a partner: as many begin as end at each vertex. -/
theorem horizon_degrees (ts : List (Tri α)) (hn : (ts.flatMap dedges).Nodup) (O : List Edge) (hO : O.Nodup)
    (hmem : ∀ e, e ∈ O ↔ e ∈ ts.flatMap dedges ∧ e.rev ∉ ts.flatMap dedges) (v : Nat) :
    O.countP (fun e => e.a == v) = O.countP (fun e => e.b == v) := by
  have hdeg := degrees ts v
  generalize ts.flatMap dedges = L at hn hmem hdeg
  have hI : ((L.filter fun e => decide (e.rev ∈ L)).map Edge.rev).Perm (L.filter fun e => decide (e.rev ∈ L)) := by
    apply rev_perm (hn.filter _)
    intro e he
    rw [List.mem_filter] at he ⊢
    exact ⟨by simpa using he.2, decide_eq_true he.1⟩
  have hO' : O.Perm (L.filter fun e => !decide (e.rev ∈ L)) := by
    rw [List.perm_ext_iff_of_nodup hO (hn.filter _)]
    intro e
    rw [hmem, List.mem_filter]
    simp
  rw [hO'.countP_eq, hO'.countP_eq]
  have e1 := List.countP_eq_countP_filter_add L (fun e => e.a == v) (fun e => decide (e.rev ∈ L))
  have e2 := List.countP_eq_countP_filter_add L (fun e => e.b == v) (fun e => decide (e.rev ∈ L))
  have e3 : (L.filter fun e => decide (e.rev ∈ L)).countP (fun e => e.a == v) =
      (L.filter fun e => decide (e.rev ∈ L)).countP (fun e => e.b == v) := by
    rw [← hI.countP_eq, List.countP_map]
    rfl
  omega

/-- Values that change their sign with the direction of the edge cancel out. -/
theorem sum_cancels {L : List Edge} (hn : L.Nodup) (hL : ∀ e ∈ L, e.rev ∈ L) (f : Edge → ℝ) (hf : ∀ e, f e.rev = -f e) :
    (L.map f).sum = 0 := by
  have h1 : (L.map f).sum = ((L.map Edge.rev).map f).sum := ((rev_perm hn hL).map f).sum_eq.symm
  have h2 : ((L.map Edge.rev).map f).sum = -(L.map f).sum := by
    clear h1 hn hL
    induction L with
    | nil => simp
    | cons e L ih =>
      simp only [List.map_cons, List.sum_cons, ih, hf]
      ring
  linarith

theorem sum_faces (ts : List (Tri α)) (f : Edge → ℝ) :
    ((ts.flatMap dedges).map f).sum = (ts.map fun t => f ⟨t.a, t.b⟩ + f ⟨t.b, t.c⟩ + f ⟨t.c, t.a⟩).sum := by
  induction ts with
  | nil => rfl
  | cons t ts ih =>
    simp only [List.flatMap_cons, List.map_append, List.sum_append, ih, dedges, List.map_cons, List.map_nil, List.sum_cons,
      List.sum_nil]
    ring

end Pasture.Hull
