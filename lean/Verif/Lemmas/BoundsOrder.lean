import Verif.Spec.BoundsOrder
import Verif.Props.Bounds

/-!
# Lemmas about the bounds of points in another order
-/

namespace Pasture

open Spec AABB

section
variable {F : FloatFormat}

/-- The ranks of the floats that are not NaN. -/
def ranks (xs : List (Flt F)) : List Int := (xs.filter fun x => !x.isNaN).map Flt.rank

theorem low_fold : ∀ (xs : List (Flt F)) (m : Flt F), NotNaN m →
    NotNaN (xs.foldl (fun a b => smaller b a) m) ∧
      (xs.foldl (fun a b => smaller b a) m).rank = (ranks xs).foldl min m.rank
  | [], m, hm => ⟨hm, rfl⟩
  | x :: xs, m, hm => by
    have hm' : m.isNaN = false := hm
    rw [List.foldl_cons]
    cases hx : x.isNaN with
    | true =>
      have e : smaller x m = m := by unfold smaller; rw [if_neg]; simp [Cmp.lt, Flt.lt, hx]
      rw [e, show ranks (x :: xs) = ranks xs by unfold ranks; simp [hx]]
      exact low_fold xs m hm
    | false =>
      have e : NotNaN (smaller x m) := smaller_good hx hm
      have er : (smaller x m).rank = min m.rank x.rank := by
        unfold smaller
        by_cases h : x.rank < m.rank
        · rw [if_pos (by simp [Cmp.lt, Flt.lt, hx, hm', h])]; omega
        · rw [if_neg (by simp [Cmp.lt, Flt.lt, hx, hm', h])]; omega
      rw [show ranks (x :: xs) = x.rank :: ranks xs by unfold ranks; simp [hx], List.foldl_cons, ← er]
      exact low_fold xs _ e

theorem high_fold : ∀ (xs : List (Flt F)) (m : Flt F), NotNaN m →
    NotNaN (xs.foldl (fun a b => larger b a) m) ∧
      (xs.foldl (fun a b => larger b a) m).rank = (ranks xs).foldl max m.rank
  | [], m, hm => ⟨hm, rfl⟩
  | x :: xs, m, hm => by
    have hm' : m.isNaN = false := hm
    rw [List.foldl_cons]
    cases hx : x.isNaN with
    | true =>
      have e : larger x m = m := by unfold larger; rw [if_neg]; simp [Cmp.lt, Flt.lt, hx]
      rw [e, show ranks (x :: xs) = ranks xs by unfold ranks; simp [hx]]
      exact high_fold xs m hm
    | false =>
      have e : NotNaN (larger x m) := larger_good hx hm
      have er : (larger x m).rank = max m.rank x.rank := by
        unfold larger
        by_cases h : m.rank < x.rank
        · rw [if_pos (by simp [Cmp.lt, Flt.lt, hx, hm', h])]; omega
        · rw [if_neg (by simp [Cmp.lt, Flt.lt, hx, hm', h])]; omega
      rw [show ranks (x :: xs) = x.rank :: ranks xs by unfold ranks; simp [hx], List.foldl_cons, ← er]
      exact high_fold xs _ e

theorem feq_ranks {x y : Flt F} (hx : NotNaN x) (hy : NotNaN y) : Flt.feq x y = true ↔ x.rank = y.rank := by
  unfold NotNaN at hx hy
  simp [Flt.feq, hx, hy]

theorem cmp_lt_ranks {x y : Flt F} (hx : NotNaN x) (hy : NotNaN y) : Cmp.lt x y = decide (x.rank < y.rank) := by
  unfold NotNaN at hx hy
  simp [Cmp.lt, Flt.lt, hx, hy]

theorem smaller_rank {x y : Flt F} (hx : NotNaN x) (hy : NotNaN y) :
    (smaller x y).rank = min x.rank y.rank := by
  unfold smaller
  rw [cmp_lt_ranks hx hy]
  by_cases h : x.rank < y.rank
  · rw [if_pos (by simp [h])]; omega
  · rw [if_neg (by simp [h])]; omega

theorem larger_rank {x y : Flt F} (hx : NotNaN x) (hy : NotNaN y) :
    (larger x y).rank = max x.rank y.rank := by
  unfold larger
  rw [cmp_lt_ranks hy hx]
  by_cases h : y.rank < x.rank
  · rw [if_pos (by simp [h])]; omega
  · rw [if_neg (by simp [h])]; omega

theorem ranks_perm {xs ys : List (Flt F)} (h : xs.Perm ys) : (ranks xs).Perm (ranks ys) :=
  (h.filter _).map _

theorem ranks_append (xs ys : List (Flt F)) : ranks (xs ++ ys) = ranks xs ++ ranks ys := by
  simp [ranks]

end

theorem foldl_min_perm {xs ys : List Int} (h : xs.Perm ys) (a : Int) : xs.foldl min a = ys.foldl min a :=
  h.foldl_eq' (fun x _ y _ z => by omega) a

theorem foldl_max_perm {xs ys : List Int} (h : xs.Perm ys) (a : Int) : xs.foldl max a = ys.foldl max a :=
  h.foldl_eq' (fun x _ y _ z => by omega) a

theorem foldl_min_start : ∀ (xs : List Int) (a b : Int), xs.foldl min (min a b) = min (xs.foldl min a) b
  | [], _, _ => rfl
  | x :: xs, a, b => by
    rw [List.foldl_cons, List.foldl_cons, show min (min a b) x = min (min a x) b by omega, foldl_min_start xs]

theorem foldl_max_start : ∀ (xs : List Int) (a b : Int), xs.foldl max (max a b) = max (xs.foldl max a) b
  | [], _, _ => rfl
  | x :: xs, a, b => by
    rw [List.foldl_cons, List.foldl_cons, show max (max a b) x = max (max a x) b by omega, foldl_max_start xs]

theorem foldl_min_append (xs ys : List Int) (a : Int) :
    (xs ++ ys).foldl min a = min (xs.foldl min a) (ys.foldl min a) := by
  have h0 : ∀ xs : List Int, xs.foldl min a ≤ a := by
    intro xs
    have := foldl_min_start xs a a
    rw [Int.min_self] at this
    omega
  have h1 := h0 xs
  rw [List.foldl_append]
  have h2 := foldl_min_start ys a (xs.foldl min a)
  rw [show min a (xs.foldl min a) = xs.foldl min a by omega] at h2
  omega

theorem foldl_max_append (xs ys : List Int) (a : Int) :
    (xs ++ ys).foldl max a = max (xs.foldl max a) (ys.foldl max a) := by
  have h0 : ∀ xs : List Int, a ≤ xs.foldl max a := by
    intro xs
    have := foldl_max_start xs a a
    rw [Int.max_self] at this
    omega
  have h1 := h0 xs
  rw [List.foldl_append]
  have h2 := foldl_max_start ys a (xs.foldl max a)
  rw [show max a (xs.foldl max a) = xs.foldl max a by omega] at h2
  omega

/-- The two corners `calculate_bounds` computes. -/
def corners (top bottom : F64) (ps : List (P3 F64)) : P3 F64 × P3 F64 :=
  ps.foldl boundsStep (⟨top, top, top⟩, ⟨bottom, bottom, bottom⟩)

/-- The same, by the ranks of their coordinates. -/
structure CornersAre (top bottom : F64) (ps : List (P3 F64)) (a : P3 F64 × P3 F64) : Prop where
  good : Coords NotNaN a.1 ∧ Coords NotNaN a.2
  minx : a.1.x.rank = (ranks (ps.map P3.x)).foldl min top.rank
  miny : a.1.y.rank = (ranks (ps.map P3.y)).foldl min top.rank
  minz : a.1.z.rank = (ranks (ps.map P3.z)).foldl min top.rank
  maxx : a.2.x.rank = (ranks (ps.map P3.x)).foldl max bottom.rank
  maxy : a.2.y.rank = (ranks (ps.map P3.y)).foldl max bottom.rank
  maxz : a.2.z.rank = (ranks (ps.map P3.z)).foldl max bottom.rank

theorem corners_are {top bottom : F64} (ht : NotNaN top) (hb : NotNaN bottom) (ps : List (P3 F64)) :
    CornersAre top bottom ps (corners top bottom ps) := by
  unfold corners
  rw [boundsStep_fold]
  have lx := low_fold (ps.map P3.x) top ht
  have ly := low_fold (ps.map P3.y) top ht
  have lz := low_fold (ps.map P3.z) top ht
  have hx := high_fold (ps.map P3.x) bottom hb
  have hy := high_fold (ps.map P3.y) bottom hb
  have hz := high_fold (ps.map P3.z) bottom hb
  exact ⟨⟨⟨lx.1, ly.1, lz.1⟩, hx.1, hy.1, hz.1⟩, lx.2, ly.2, lz.2, hx.2, hy.2, hz.2⟩

theorem fromMinMax_ranks {a : P3 F64 × P3 F64} (h : Coords NotNaN a.1 ∧ Coords NotNaN a.2) :
    fromMinMax a.1 a.2 = if a.1.x.rank ≤ a.2.x.rank ∧ a.1.y.rank ≤ a.2.y.rank ∧ a.1.z.rank ≤ a.2.z.rank then
      .ok ⟨a.1, a.2⟩ else panicked := by
  obtain ⟨⟨h1, h2, h3⟩, h4, h5, h6⟩ := h
  unfold fromMinMax
  rw [cmp_lt_ranks h4 h1, cmp_lt_ranks h5 h2, cmp_lt_ranks h6 h3]
  by_cases hx : a.1.x.rank ≤ a.2.x.rank ∧ a.1.y.rank ≤ a.2.y.rank ∧ a.1.z.rank ≤ a.2.z.rank
  · rw [if_pos hx, if_neg]
    simp only [Bool.or_eq_true, decide_eq_true_eq]
    omega
  · rw [if_neg hx, if_pos]
    simp only [Bool.or_eq_true, decide_eq_true_eq]
    omega

/-- Points in another order have the same corners. -/
theorem corners_perm {top bottom : F64} {ps qs : List (P3 F64)} (h : ps.Perm qs)
    {a b : P3 F64 × P3 F64} (ha : CornersAre top bottom ps a) (hb : CornersAre top bottom qs b) :
    SamePlace a.1 b.1 ∧ SamePlace a.2 b.2 ∧
      ((fromMinMax a.1 a.2 = .ok ⟨a.1, a.2⟩ ∧ fromMinMax b.1 b.2 = .ok ⟨b.1, b.2⟩) ∨
        (fromMinMax a.1 a.2 = panicked ∧ fromMinMax b.1 b.2 = panicked)) := by
  have e1 : a.1.x.rank = b.1.x.rank := by rw [ha.minx, hb.minx, foldl_min_perm (ranks_perm (h.map _))]
  have e2 : a.1.y.rank = b.1.y.rank := by rw [ha.miny, hb.miny, foldl_min_perm (ranks_perm (h.map _))]
  have e3 : a.1.z.rank = b.1.z.rank := by rw [ha.minz, hb.minz, foldl_min_perm (ranks_perm (h.map _))]
  have e4 : a.2.x.rank = b.2.x.rank := by rw [ha.maxx, hb.maxx, foldl_max_perm (ranks_perm (h.map _))]
  have e5 : a.2.y.rank = b.2.y.rank := by rw [ha.maxy, hb.maxy, foldl_max_perm (ranks_perm (h.map _))]
  have e6 : a.2.z.rank = b.2.z.rank := by rw [ha.maxz, hb.maxz, foldl_max_perm (ranks_perm (h.map _))]
  rw [fromMinMax_ranks ha.good, fromMinMax_ranks hb.good, e1, e2, e3, e4, e5, e6]
  obtain ⟨⟨a1, a2, a3⟩, a4, a5, a6⟩ := ha.good
  obtain ⟨⟨b1, b2, b3⟩, b4, b5, b6⟩ := hb.good
  refine ⟨⟨(feq_ranks a1 b1).2 e1, (feq_ranks a2 b2).2 e2, (feq_ranks a3 b3).2 e3⟩,
    ⟨(feq_ranks a4 b4).2 e4, (feq_ranks a5 b5).2 e5, (feq_ranks a6 b6).2 e6⟩, ?_⟩
  by_cases hp : b.1.x.rank ≤ b.2.x.rank ∧ b.1.y.rank ≤ b.2.y.rank ∧ b.1.z.rank ≤ b.2.z.rank
  · rw [if_pos hp, if_pos hp]; exact .inl ⟨rfl, rfl⟩
  · rw [if_neg hp, if_neg hp]; exact .inr ⟨rfl, rfl⟩

theorem boundsOfPositions_eq (xs : List Bytes) :
    boundsOfPositions xs = fromMinMax (corners f64Max f64Min (xs.map positionOf)).1
      (corners f64Max f64Min (xs.map positionOf)).2 := rfl

/-- If both parts have bounds then so has the whole, and they are the union. -/
theorem corners_append {top bottom : F64} {ps qs rs : List (P3 F64)} (h : rs.Perm (ps ++ qs))
    {a b c : P3 F64 × P3 F64} (ha : CornersAre top bottom ps a) (hb : CornersAre top bottom qs b)
    (hc : CornersAre top bottom rs c) {x y : AABB F64} (hx : fromMinMax a.1 a.2 = .ok x)
    (hy : fromMinMax b.1 b.2 = .ok y) :
    fromMinMax c.1 c.2 = .ok ⟨c.1, c.2⟩ ∧ SameCorners ⟨c.1, c.2⟩ (x.union y) := by
  have hx' := hx
  have hy' := hy
  rw [fromMinMax_ranks ha.good] at hx
  rw [fromMinMax_ranks hb.good] at hy
  by_cases pa : a.1.x.rank ≤ a.2.x.rank ∧ a.1.y.rank ≤ a.2.y.rank ∧ a.1.z.rank ≤ a.2.z.rank
  swap
  · rw [if_neg pa] at hx; cases hx
  by_cases pb : b.1.x.rank ≤ b.2.x.rank ∧ b.1.y.rank ≤ b.2.y.rank ∧ b.1.z.rank ≤ b.2.z.rank
  swap
  · rw [if_neg pb] at hy; cases hy
  rw [if_pos pa] at hx
  rw [if_pos pb] at hy
  cases hx
  cases hy
  have lo : ∀ axis : P3 F64 → F64, (ranks (rs.map axis)).foldl min top.rank =
      min ((ranks (ps.map axis)).foldl min top.rank) ((ranks (qs.map axis)).foldl min top.rank) := by
    intro axis
    rw [foldl_min_perm (ranks_perm (h.map axis)), List.map_append, ranks_append, foldl_min_append]
  have hi : ∀ axis : P3 F64 → F64, (ranks (rs.map axis)).foldl max bottom.rank =
      max ((ranks (ps.map axis)).foldl max bottom.rank) ((ranks (qs.map axis)).foldl max bottom.rank) := by
    intro axis
    rw [foldl_max_perm (ranks_perm (h.map axis)), List.map_append, ranks_append, foldl_max_append]
  have e1 : c.1.x.rank = min a.1.x.rank b.1.x.rank := by rw [ha.minx, hb.minx, hc.minx, lo]
  have e2 : c.1.y.rank = min a.1.y.rank b.1.y.rank := by rw [ha.miny, hb.miny, hc.miny, lo]
  have e3 : c.1.z.rank = min a.1.z.rank b.1.z.rank := by rw [ha.minz, hb.minz, hc.minz, lo]
  have e4 : c.2.x.rank = max a.2.x.rank b.2.x.rank := by rw [ha.maxx, hb.maxx, hc.maxx, hi]
  have e5 : c.2.y.rank = max a.2.y.rank b.2.y.rank := by rw [ha.maxy, hb.maxy, hc.maxy, hi]
  have e6 : c.2.z.rank = max a.2.z.rank b.2.z.rank := by rw [ha.maxz, hb.maxz, hc.maxz, hi]
  obtain ⟨⟨a1, a2, a3⟩, a4, a5, a6⟩ := ha.good
  obtain ⟨⟨b1, b2, b3⟩, b4, b5, b6⟩ := hb.good
  constructor
  · rw [fromMinMax_ranks hc.good, if_pos]
    omega
  · obtain ⟨⟨c1, c2, c3⟩, c4, c5, c6⟩ := hc.good
    refine ⟨⟨?_, ?_, ?_⟩, ?_, ?_, ?_⟩
    · exact (feq_ranks c1 (smaller_good a1 b1)).2 (by rw [smaller_rank a1 b1]; exact e1)
    · exact (feq_ranks c2 (smaller_good a2 b2)).2 (by rw [smaller_rank a2 b2]; exact e2)
    · exact (feq_ranks c3 (smaller_good a3 b3)).2 (by rw [smaller_rank a3 b3]; exact e3)
    · exact (feq_ranks c4 (larger_good a4 b4)).2 (by rw [larger_rank a4 b4]; exact e4)
    · exact (feq_ranks c5 (larger_good a5 b5)).2 (by rw [larger_rank a5 b5]; exact e5)
    · exact (feq_ranks c6 (larger_good a6 b6)).2 (by rw [larger_rank a6 b6]; exact e6)

end Pasture
