import Verif.Lemmas.HullClosed
import Verif.Props.HullExact

/-!
# The mesh of a convex hull has no holes: C103
-/

namespace Pasture.Props

open Spec Hull BorrowedBuffer

/-- The edges of a triangle between two of its vertices. -/
theorem trianglesAt_count {α : Type} {n : Nat} (ts : List (Tri α)) (h : ∀ t ∈ ts, Good n t) (i j : Nat) (hij : i ≠ j) :
    trianglesAt (meshOf ts) i j = edgeCount ts fun e => e.same ⟨i, j⟩ := by
  induction ts with
  | nil => rfl
  | cons t ts ih =>
    have g := h t List.mem_cons_self
    have g1 := g.ab
    have g2 := g.bc
    have g3 := g.ca
    have ih := ih fun t ht => h t (List.mem_cons_of_mem _ ht)
    rw [show t :: ts = [t] ++ ts from rfl, edgeCount_append, ← ih, edgeCount_single]
    show List.countP _ ((⟨t.a, t.b, t.c⟩ : P3 Nat) :: meshOf ts) = _
    rw [List.countP_cons]
    unfold trianglesAt
    have : (if decide (HasVertex ⟨t.a, t.b, t.c⟩ i ∧ HasVertex ⟨t.a, t.b, t.c⟩ j) = true then 1 else 0) =
        [(⟨t.a, t.b⟩ : Edge)].countP (fun e => e.same ⟨i, j⟩) + [(⟨t.b, t.c⟩ : Edge)].countP (fun e => e.same ⟨i, j⟩) +
          [(⟨t.c, t.a⟩ : Edge)].countP (fun e => e.same ⟨i, j⟩) := by
      simp only [List.countP_singleton, HasVertex, Edge.same, Bool.or_eq_true, Bool.and_eq_true, beq_iff_eq]
      grind
    omega

section
variable {β : Type} [BorrowedBuffer β] (b : β) (l : PointLayout) (hl : Solid l) (ps : List Point) (h : ShowsPoints b l ps)
  (hpos : position3D ∈ l.attributes.map Member.definition) (order : List Edge → List Edge)
  (horder : ∀ es, (order es).Perm es)
include hl h hpos horder

/-- C103: whatever the rounding errors are, the mesh has no holes if no point is in the computed plane of three others.
    (That each edge belongs to two triangles, and not to four, is false: `C103_rounding_violated`.) -/
theorem C103_partial (hplane : NoFourInPlane (positionsOf ps)) : convexHullAsTriangleMesh order b = .error .err ∨
    ∃ mesh, convexHullAsTriangleMesh order b = .ok mesh ∧ 2 ≤ mesh.length ∧ MeshOf ps.length mesh ∧ Watertight mesh := by
  obtain ⟨hlen, _, hget⟩ := positions_get hl h hpos
  have hex : ∀ i, ∃ q, i < ps.length → Ransac.positionAt b i = .ok q ∧ (positionsOf ps)[i]? = some q := by
    intro i
    by_cases hi : i < ps.length
    · obtain ⟨p, hp⟩ := hget i hi
      exact ⟨p, fun _ => hp⟩
    · exact ⟨⟨Flt.zero .f64, Flt.zero .f64, Flt.zero .f64⟩, fun hc => absurd hc hi⟩
  choose Q hQ using hex
  obtain ⟨ts, h1, h2, h3⟩ := stage_all (look := Ransac.positionAt b) (Q := Q) order horder (positionsOf ps)
    (fun j hj => (hQ j (by omega)).1) (fun i hi => by
      have := (hQ i (by omega)).2
      rw [List.getElem?_eq_getElem hi] at this
      exact Option.some.inj this) hplane ps.length (by omega)
  rw [List.take_of_length_le (by simp [hlen])] at h1
  have hc : createConvexHull order b = .ok ts := by
    unfold createConvexHull
    rw [positions_hull hl h hpos]
    exact h1
  unfold convexHullAsTriangleMesh
  rw [hc]
  simp only [bind, Except.bind]
  by_cases hts : ts.length < 2
  · left
    simp [bailIf, hts]
  · right
    have hT : Tight Q ps.length ts := by
      rcases h3 with h3 | h3
      · omega
      · exact h3
    refine ⟨meshOf ts, by simp [bailIf, hts, pure, Except.pure, meshOf], by simp [meshOf]; omega, ?_, ?_⟩
    · intro t ht
      obtain ⟨u, hu, rfl⟩ := List.mem_map.1 ht
      have hg := hT.good u hu
      exact ⟨⟨hg.a_lt, hg.b_lt, hg.c_lt⟩, hg.ab, hg.bc, hg.ca⟩
    · intro i j hij
      rw [trianglesAt_count ts hT.good i j hij]
      exact hT.even i j hij

end

/-- A mesh without holes has no edge that belongs to a single triangle. -/
theorem watertight_other {mesh : List (P3 Nat)} (hw : Watertight mesh) :
    ∀ t ∈ mesh, ∀ i j, i ≠ j → HasVertex t i → HasVertex t j → 2 ≤ trianglesAt mesh i j := by
  intro t ht i j hij hi hj
  have h1 := hw i j hij
  have h2 : 0 < trianglesAt mesh i j := List.countP_pos_iff.2 ⟨t, ht, by simp [hi, hj]⟩
  omega

/-! ## Points in a plane -/

namespace HullExample

/-- Four points in a plane. -/
def planar : List (Int × Int × Int) := [(3, 0, 0), (3, 3, 0), (2, 0, 0), (0, 3, 0)]

/-- The sixth and the seventh point are equal. -/
def torn : List (Int × Int × Int) :=
  [(2, 0, 2), (2, 1, 2), (2, 2, 0), (2, 2, 2), (0, 2, 0), (0, 0, 0), (0, 0, 0), (2, 0, 1)]

end HullExample

open HullExample in
/-- C103 fails for four points in a plane: an edge belongs to four triangles. -/
theorem C103_planar_violated : ∃ mesh, convexHullAsTriangleMesh id (hullBuffer planar) = .ok mesh ∧ ¬ TwoSided mesh ∧
    trianglesAt mesh 1 2 = 4 := by
  refine ⟨[⟨0, 1, 2⟩, ⟨0, 2, 1⟩, ⟨1, 2, 3⟩, ⟨2, 1, 3⟩], by decide +kernel, ?_, by decide⟩
  intro h
  have := h ⟨0, 1, 2⟩ (by simp) 1 2 (by decide) (by decide) (by decide)
  exact absurd this (by decide)

open HullExample in
/-- C103 fails: the mesh can have a hole if points are in a plane with three others. -/
theorem C103_hole_violated : ∃ mesh, convexHullAsTriangleMesh id (hullBuffer torn) = .ok mesh ∧ ¬ Watertight mesh ∧
    trianglesAt mesh 3 7 = 1 := by
  refine ⟨[⟨2, 3, 6⟩, ⟨3, 2, 6⟩, ⟨3, 6, 7⟩], by decide +kernel, ?_, by decide⟩
  intro h
  exact absurd (h 3 7 (by decide)) (by decide)

/-! ## Rounding errors -/

namespace HullExample

/-- No four of these points are in a plane. -/
def pinched : List (Int × Int × Int) :=
  [(5, -7, -11), (3, -5066549580791808, 3), (4785074604081152, 3940649673949184, -3377699720527872), (0, 0, -5), (-5, -16, 20),
   (-15, -8, 1)]

end HullExample

open HullExample RansacExample in
/-- C103 fails, even for points in general position, because of rounding errors: an edge belongs to four triangles. -/
theorem C103_rounding_violated : ∃ ps, ShowsPoints (hullBuffer pinched) positionLayout ps ∧
    GeneralPosition ((positionsOf ps).map realPoint) ∧
    ∃ mesh, convexHullAsTriangleMesh id (hullBuffer pinched) = .ok mesh ∧ ¬ TwoSided mesh ∧ trianglesAt mesh 2 5 = 4 := by
  refine ⟨_, interleaved_shows_points positionLayout_solid (by unfold AllLen; decide +kernel), ?_,
    [⟨2, 0, 3⟩, ⟨1, 2, 4⟩, ⟨0, 2, 5⟩, ⟨2, 1, 5⟩, ⟨3, 0, 5⟩, ⟨2, 3, 5⟩, ⟨4, 2, 5⟩, ⟨1, 4, 5⟩], by decide +kernel, ?_, by decide⟩
  · have hpos : positionsOf ((pinched.map fun p => positionRecord p.1 p.2.1 p.2.2).map (pointOf positionLayout)) =
        pinched.map fun p => ⟨Flt.ofInt .f64 p.1, Flt.ofInt .f64 p.2.1, Flt.ofInt .f64 p.2.2⟩ := by decide +kernel
    have hreal : (pinched.map fun p => (⟨Flt.ofInt .f64 p.1, Flt.ofInt .f64 p.2.1, Flt.ofInt .f64 p.2.2⟩ : P3 F64)).map realPoint =
        pinched.map fun p => ⟨p.1, p.2.1, p.2.2⟩ := by
      rw [List.map_map]
      apply List.map_congr_left
      intro p hp
      have small : ∀ p ∈ pinched, |p.1| ≤ 2 ^ 53 ∧ |p.2.1| ≤ 2 ^ 53 ∧ |p.2.2| ≤ 2 ^ 53 := by decide
      obtain ⟨s1, s2, s3⟩ := small p hp
      simp only [Function.comp, realPoint, (whole_of_int s1).value_eq, (whole_of_int s2).value_eq, (whole_of_int s3).value_eq]
      push_cast
      rfl
    rw [hpos, hreal]
    have hz : ∀ i j k l : Fin 6, [i, j, k, l].Nodup → volumeZ pinched[i] pinched[j] pinched[k] pinched[l] ≠ 0 := by
      decide +kernel
    intro i j k l hn
    have h := hz i j k l hn
    have e : volume (⟨(pinched[i].1 : ℝ), pinched[i].2.1, pinched[i].2.2⟩ : P3 ℝ)
        ⟨pinched[j].1, pinched[j].2.1, pinched[j].2.2⟩ ⟨pinched[k].1, pinched[k].2.1, pinched[k].2.2⟩
        ⟨pinched[l].1, pinched[l].2.1, pinched[l].2.2⟩ =
        (volumeZ pinched[i] pinched[j] pinched[k] pinched[l] : Int) := by
      simp only [volume, volumeZ]
      push_cast
      ring
    simp only [Fin.getElem_fin, List.getElem_map] at e ⊢
    rw [e]
    exact_mod_cast h
  · intro h
    have := h ⟨0, 2, 5⟩ (by simp) 2 5 (by decide) (by decide) (by decide)
    exact absurd this (by decide)

/-! ## Example -/

namespace HullExample

open RansacExample

/-- Points with coordinates for which the arithmetic is not exact. -/
def rough : List (Int × Int × Int) :=
  [(100000000000000003, 7, 11), (13, 100000000000000019, 5), (-3, 17, 100000000000000051),
   (-99999999999999989, -77777777777777777, -88888888888888881)]

theorem rough_shows : ShowsPoints (hullBuffer rough) positionLayout
    ((rough.map fun p => positionRecord p.1 p.2.1 p.2.2).map (pointOf positionLayout)) :=
  interleaved_shows_points positionLayout_solid (by unfold AllLen; decide +kernel)

theorem rough_positions :
    positionsOf ((rough.map fun p => positionRecord p.1 p.2.1 p.2.2).map (pointOf positionLayout)) =
      rough.map fun p => ⟨Flt.ofInt .f64 p.1, Flt.ofInt .f64 p.2.1, Flt.ofInt .f64 p.2.2⟩ := by decide +kernel

theorem rough_apart : NoFourInPlane (rough.map fun p => (⟨Flt.ofInt .f64 p.1, Flt.ofInt .f64 p.2.1, Flt.ofInt .f64 p.2.2⟩ : P3 F64)) := by
  unfold NoFourInPlane
  decide +kernel

example : ∃ mesh, convexHullAsTriangleMesh List.reverse (hullBuffer rough) = .ok mesh ∧ Watertight mesh := by
  rcases C103_partial (hullBuffer rough) positionLayout positionLayout_solid _ rough_shows (by decide +kernel) List.reverse
    (fun es => es.reverse_perm) (by rw [rough_positions]; exact rough_apart) with he | ⟨mesh, h1, _, _, h2⟩
  · exact absurd he (by decide +kernel)
  · exact ⟨mesh, h1, h2⟩

end HullExample

end Pasture.Props
