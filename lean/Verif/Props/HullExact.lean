import Verif.Lemmas.HullLoop
import Verif.Lemmas.HullExact
import Verif.Props.ConvexHull

/-!
# The convex hull of points in general position: C71
-/

namespace Pasture.Props

open Spec Hull BorrowedBuffer

/-- The triangles without their normals. -/
def meshOf {α : Type} (ts : List (Tri α)) : List (P3 Nat) := ts.map fun t => ⟨t.a, t.b, t.c⟩

theorem meshOf_edges {α : Type} (ts : List (Tri α)) : edgesOf (meshOf ts) = (ts.flatMap dedges).map fun e => (e.a, e.b) := by
  induction ts with
  | nil => rfl
  | cons t ts ih =>
    unfold meshOf edgesOf at *
    simp only [List.map_cons, List.flatMap_cons, List.map_append, ih]
    rfl

theorem meshOf_vertex {α : Type} (ts : List (Tri α)) (i : Nat) : IsVertex (meshOf ts) i ↔ i ∈ vertices ts := by
  rw [mem_vertices]
  unfold IsVertex meshOf
  simp

section
variable {α : Type} [Arith α] {look : Nat → Out (P3 α)} {Q : Nat → P3 α} {R : Nat → P3 ℝ} {n : Nat}

/-- What the triangles of all points are. -/
theorem mesh_hull (hX : Exact look Q R n) (hn : 4 ≤ n) {ts : List (Tri α)} (h : Mesh Q R n n ts) (points : List (P3 ℝ))
    (hlen : points.length = n) (hp : ∀ i < n, points[i]? = some (R i)) :
    HullMesh points (meshOf ts) ∧ ∀ indices : List Nat, (∀ i, i ∈ indices ↔ IsVertex (meshOf ts) i) →
      ∀ q ∈ points, InHullOf points indices q := by
  have hind : ∀ i < n, ∀ p, points[i]? = some p → p = R i := fun i hi p e => (Option.some.inj ((hp i hi).symm.trans e)).symm
  have hvert : ∀ i, IsVertex (meshOf ts) i → i < n := fun i hi => vertex_lt h.good ((meshOf_vertex ts i).1 hi)
  have hall : ∀ indices : List Nat, (∀ i, i ∈ indices ↔ IsVertex (meshOf ts) i) → ∀ q ∈ points, InHullOf points indices q := by
    intro indices hi q hq
    obtain ⟨j, hj⟩ := List.mem_iff_getElem?.1 hq
    have hjn : j < n := by rw [← hlen]; exact (List.getElem?_eq_some_iff.1 hj).1
    rw [hind j hjn q hj]
    refine convexHull_mono ?_ (mesh_spans hX hn h hjn)
    rintro v ⟨i, hv, rfl⟩
    have hv' := (meshOf_vertex ts i).2 hv
    exact ⟨i, (hi i).2 hv', R i, hp i (hvert i hv'), rfl⟩
  refine ⟨⟨?_, ⟨?_, ?_⟩, ?_, ?_⟩, hall⟩
  · intro t ht
    obtain ⟨u, hu, rfl⟩ := List.mem_map.1 ht
    have hg := h.good u hu
    rw [hlen]
    exact ⟨⟨hg.a_lt, hg.b_lt, hg.c_lt⟩, hg.ab, hg.bc, hg.ca⟩
  · rw [meshOf_edges]
    refine h.nodup.map ?_
    rintro ⟨a, b⟩ ⟨c, d⟩ e
    simpa using e
  · intro e he
    rw [meshOf_edges] at he ⊢
    obtain ⟨f, hf, rfl⟩ := List.mem_map.1 he
    exact List.mem_map.2 ⟨f.rev, h.twin f hf, rfl⟩
  · intro t ht a b c ha hb hc q hq
    obtain ⟨u, hu, rfl⟩ := List.mem_map.1 ht
    have hg := h.good u hu
    obtain ⟨j, hj⟩ := List.mem_iff_getElem?.1 hq
    have hjn : j < n := by rw [← hlen]; exact (List.getElem?_eq_some_iff.1 hj).1
    rw [hind _ hg.a_lt a ha, hind _ hg.b_lt b hb, hind _ hg.c_lt c hc, hind j hjn q hj]
    exact h.inside u hu j hjn
  · intro i
    constructor
    · intro hi
      have hin := hvert i hi
      refine ⟨R i, hp i hin, ?_⟩
      intro hc
      refine vertex_extreme hX hn h ((meshOf_vertex ts i).1 hi) (convexHull_mono ?_ hc)
      rintro v ⟨j, hj, p, hpj, rfl⟩
      rw [List.mem_filter, List.mem_range, hlen] at hj
      rw [hind j hj.1 p hpj]
      exact ⟨j, hj.1, of_decide_eq_true hj.2, rfl⟩
    · rintro ⟨p, hpi, hout⟩
      by_contra hni
      have hin : i < n := by rw [← hlen]; exact (List.getElem?_eq_some_iff.1 hpi).1
      rw [hind i hin p hpi] at hout
      apply hout
      refine convexHull_mono ?_ (mesh_spans hX hn h hin)
      rintro v ⟨j, hj, rfl⟩
      have hj' := (meshOf_vertex ts j).2 hj
      have hjn := hvert j hj'
      refine ⟨j, ?_, R j, hp j hjn, rfl⟩
      rw [List.mem_filter, List.mem_range, hlen]
      refine ⟨hjn, decide_eq_true ?_⟩
      rintro rfl
      exact hni hj'

end

theorem general_index {points : List (P3 ℝ)} (hgen : GeneralPosition points) (R : Nat → P3 ℝ)
    (hp : ∀ i < points.length, points[i]? = some (R i)) :
    ∀ i < points.length, ∀ j < points.length, ∀ k < points.length, ∀ l < points.length, [i, j, k, l].Nodup → vol R i j k l ≠ 0 := by
  intro i hi j hj k hk l hl hn
  have e : ∀ i (hi : i < points.length), points[i] = R i := by
    intro i hi
    have := hp i hi
    rw [List.getElem?_eq_getElem hi] at this
    exact Option.some.inj this
  have := hgen ⟨i, hi⟩ ⟨j, hj⟩ ⟨k, hk⟩ ⟨l, hl⟩ (by simpa using hn)
  simp only [Fin.getElem_fin, e] at this
  exact this

/-- C71 in exact arithmetic: the loop of `create_convex_hull` computes the hull of any points in general position. -/
theorem C71_exact_partial (points : List (P3 ℝ)) (hgen : GeneralPosition points) (h4 : 4 ≤ points.length)
    (order : List Edge → List Edge) (horder : ∀ es, (order es).Perm es) :
    ∃ ts, forLoop ((List.range points.length).zip points) [] (iteration order fun i => expectSome points[i]?) = .ok ts ∧
      HullMesh points (meshOf ts) ∧
      ∀ indices : List Nat, (∀ i, i ∈ indices ↔ IsVertex (meshOf ts) i) → ∀ q ∈ points, InHullOf points indices q := by
  have hp : ∀ i < points.length, points[i]? = some ((points[i]?).getD ⟨0, 0, 0⟩) := by
    intro i hi
    rw [List.getElem?_eq_getElem hi]
    rfl
  have hX := real_exact (fun i => (points[i]?).getD ⟨0, 0, 0⟩) points.length (fun i => expectSome points[i]?)
    (fun i hi => by rw [hp i hi]; rfl) h4 (general_index hgen _ hp)
  obtain ⟨ts, h1, h2⟩ := loop_mesh hX order horder points rfl (fun i hi => by simp [List.getElem?_eq_getElem hi]) points.length
    (by omega) le_rfl
  rw [List.take_of_length_le (by simp)] at h1
  exact ⟨ts, h1, mesh_hull hX h4 h2 points rfl hp⟩

section
variable {β : Type} [BorrowedBuffer β] (b : β) (l : PointLayout) (hl : Solid l) (ps : List Point) (h : ShowsPoints b l ps)
  (hpos : position3D ∈ l.attributes.map Member.definition) (order : List Edge → List Edge)
  (horder : ∀ es, (order es).Perm es)
include hl h hpos horder

/-- C71: the hull of at least four points in general position whose coordinates are whole numbers up to 1000. Both
    functions succeed, the triangles are the surface of the hull, the points are those that are not convex combinations
    of the others, and each point of the buffer is a convex combination of them. -/
theorem C71_partial (h4 : 4 ≤ ps.length) (hgen : GeneralPosition ((positionsOf ps).map realPoint))
    (hsmall : ∀ p ∈ positionsOf ps, SmallWhole p.x ∧ SmallWhole p.y ∧ SmallWhole p.z)
    (collect : List Nat → List Nat) (hcollect : ∀ s, (collect s).Perm s) :
    ∃ mesh indices, convexHullAsTriangleMesh order b = .ok mesh ∧ convexHullAsPoints order collect b = .ok indices ∧
      HullMesh ((positionsOf ps).map realPoint) mesh ∧ (∀ i, i ∈ indices ↔ IsVertex mesh i) ∧
      ∀ q ∈ positionsOf ps, InHullOf ((positionsOf ps).map realPoint) indices (realPoint q) := by
  obtain ⟨hlen, _, hget⟩ := positions_get hl h hpos
  -- the positions as whole numbers
  have hch : ∀ i, ∃ q : P3 F64 × P3 Int, i < ps.length → Ransac.positionAt b i = .ok q.1 ∧ (positionsOf ps)[i]? = some q.1 ∧
      WholePoint q.1 q.2 ∧ Below 1000 q.2 ∧ realPoint q.1 = realZ q.2 := by
    intro i
    by_cases hi : i < ps.length
    · obtain ⟨p, hp1, hp2⟩ := hget i hi
      obtain ⟨⟨f1, z1, b1, v1⟩, ⟨f2, z2, b2, v2⟩, ⟨f3, z3, b3, v3⟩⟩ := hsmall p (List.mem_of_getElem? hp2)
      refine ⟨(p, ⟨z1, z2, z3⟩), fun _ => ⟨hp1, hp2, ⟨⟨f1, v1⟩, ⟨f2, v2⟩, ⟨f3, v3⟩⟩, ⟨b1, b2, b3⟩, ?_⟩⟩
      unfold realPoint realZ
      simp only
      rw [v1, v2, v3]
      push_cast
      rfl
    · exact ⟨(⟨Flt.zero .f64, Flt.zero .f64, Flt.zero .f64⟩, ⟨0, 0, 0⟩), fun hc => absurd hc hi⟩
  choose q hq using hch
  have hp : ∀ i < ps.length, ((positionsOf ps).map realPoint)[i]? = some (realZ (q i).2) := by
    intro i hi
    obtain ⟨_, q2, _, _, q5⟩ := hq i hi
    rw [List.getElem?_map, q2, Option.map_some, q5]
  have hplen : ((positionsOf ps).map realPoint).length = ps.length := by rw [List.length_map, hlen]
  have hX := whole_exact (n := ps.length) (Q := fun i => (q i).1) (Z := fun i => (q i).2) (fun i hi => (hq i hi).2.2.1)
    (fun i hi => (hq i hi).2.2.2.1) (Ransac.positionAt b) (fun i hi => (hq i hi).1) h4
    (by have := general_index hgen (fun i => realZ (q i).2) (by rw [hplen]; exact hp)
        rwa [hplen] at this)
  obtain ⟨ts, h1, h2⟩ := loop_mesh hX order horder (positionsOf ps) hlen (fun i hi => by
    obtain ⟨_, q2, _⟩ := hq i (by omega)
    rw [List.getElem?_eq_getElem hi] at q2
    exact Option.some.inj q2) ps.length (by omega) le_rfl
  rw [List.take_of_length_le (by simp [hlen])] at h1
  obtain ⟨m1, m2⟩ := mesh_hull hX h4 h2 _ hplen hp
  have hc : createConvexHull order b = .ok ts := by
    unfold createConvexHull
    rw [positions_hull hl h hpos]
    exact h1
  have hts : 2 ≤ ts.length := by
    match hts : ts, h2 with
    | [], h2 => exact absurd rfl h2.nonempty
    | [t], h2 =>
      have hg := h2.good t (List.mem_singleton_self t)
      have := h2.twin ⟨t.a, t.b⟩ (by simp [dedges])
      have g1 := hg.ab
      have g2 := hg.bc
      have g3 := hg.ca
      simp [dedges, Edge.rev] at this
      omega
    | _ :: _ :: _, _ => simp
  obtain ⟨c1, c2⟩ := collect_points ts [] .nil
  have hind : ∀ i, i ∈ collect (ts.foldl (fun s t => setInsert (setInsert (setInsert s t.a) t.b) t.c) []) ↔ IsVertex (meshOf ts) i := by
    intro i
    rw [(hcollect _).mem_iff, c2, meshOf_vertex, mem_vertices]
    simp
  refine ⟨meshOf ts, collect (ts.foldl (fun s t => setInsert (setInsert (setInsert s t.a) t.b) t.c) []), ?_, ?_, m1, hind, ?_⟩
  · unfold convexHullAsTriangleMesh
    rw [hc]
    simp only [bind, Except.bind, bailIf]
    rw [if_neg (by simp; omega)]
    rfl
  · unfold convexHullAsPoints
    rw [hc]
    simp only [bind, Except.bind]
    rw [if_pos (by omega)]
    rfl
  · intro p hp'
    exact m2 _ hind _ (List.mem_map.2 ⟨p, hp', rfl⟩)

end

/-! ## Points in a plane -/

namespace HullExample

open RansacExample

/-- Some of these points are in a plane. -/
def coplanar : List (Int × Int × Int) := [(2, 0, 0), (0, 0, 0), (1, 1, 0), (2, 0, 1), (0, 2, 0), (1, 0, 0)]

end HullExample

open HullExample RansacExample in
/-- C71 fails for points that are not in general position: the second point is outside of what is returned. -/
theorem C71_violated : ∃ mesh, convexHullAsTriangleMesh id (hullBuffer coplanar) = .ok mesh ∧
    ∃ ps, ShowsPoints (hullBuffer coplanar) positionLayout ps ∧ ∃ q ∈ positionsOf ps,
      ∀ indices : List Nat, (∀ i ∈ indices, IsVertex mesh i) → ¬ InHullOf ((positionsOf ps).map realPoint) indices (realPoint q) := by
  refine ⟨[⟨0, 2, 3⟩, ⟨3, 2, 4⟩, ⟨2, 0, 5⟩, ⟨0, 3, 5⟩, ⟨4, 2, 5⟩, ⟨3, 4, 5⟩], by decide +kernel, _,
    interleaved_shows_points positionLayout_solid (by unfold AllLen; decide +kernel), ?_⟩
  have hpos : positionsOf ((coplanar.map fun p => positionRecord p.1 p.2.1 p.2.2).map (pointOf positionLayout)) =
      coplanar.map fun p => ⟨Flt.ofInt .f64 p.1, Flt.ofInt .f64 p.2.1, Flt.ofInt .f64 p.2.2⟩ := by decide +kernel
  have hreal : (coplanar.map fun p => (⟨Flt.ofInt .f64 p.1, Flt.ofInt .f64 p.2.1, Flt.ofInt .f64 p.2.2⟩ : P3 F64)).map realPoint =
      coplanar.map fun p => ⟨p.1, p.2.1, p.2.2⟩ := by
    rw [List.map_map]
    apply List.map_congr_left
    intro p hp
    have small : ∀ p ∈ coplanar, |p.1| ≤ 2 ^ 53 ∧ |p.2.1| ≤ 2 ^ 53 ∧ |p.2.2| ≤ 2 ^ 53 := by decide
    obtain ⟨s1, s2, s3⟩ := small p hp
    simp only [Function.comp, realPoint, (whole_of_int s1).value_eq, (whole_of_int s2).value_eq, (whole_of_int s3).value_eq]
    push_cast
    rfl
  rw [hpos, hreal]
  refine ⟨_, List.mem_map.2 ⟨(0, 0, 0), by decide, rfl⟩, ?_⟩
  intro indices hi hc
  have hsub : {v : ℝ × ℝ × ℝ | ∃ i ∈ indices, ∃ p, (coplanar.map fun p => (⟨(p.1 : ℝ), (p.2.1 : ℝ), (p.2.2 : ℝ)⟩ : P3 ℝ))[i]? = some p ∧ v = (p.x, p.y, p.z)} ⊆
      {v | 1 ≤ v.1 + v.2.1} := by
    rintro v ⟨i, hi', p, hp, rfl⟩
    obtain ⟨t, ht, hit⟩ := hi i hi'
    have : i = 0 ∨ i = 2 ∨ i = 3 ∨ i = 4 ∨ i = 5 := by
      simp only [List.mem_cons, List.not_mem_nil, or_false] at ht
      rcases ht with rfl | rfl | rfl | rfl | rfl | rfl <;> simp at hit <;> omega
    rcases this with rfl | rfl | rfl | rfl | rfl <;>
      (simp [coplanar] at hp; rw [← hp]; simp)
  have hconv : Convex ℝ {v : ℝ × ℝ × ℝ | 1 ≤ v.1 + v.2.1} :=
    convex_halfSpace_ge ⟨fun x y => by simp; ring, fun c x => by simp; ring⟩ _
  have := convexHull_min hsub hconv hc
  simp only [Set.mem_ofPred_eq, realPoint, (whole_of_int (z := 0) (by decide)).value_eq] at this
  norm_num at this

/-! ## Example -/

namespace HullExample

open RansacExample

/-- `volume` of whole points. -/
def volumeZ (p q r s : Int × Int × Int) : Int :=
  (q.1 - p.1) * ((r.2.1 - p.2.1) * (s.2.2 - p.2.2) - (r.2.2 - p.2.2) * (s.2.1 - p.2.1)) -
  (q.2.1 - p.2.1) * ((r.1 - p.1) * (s.2.2 - p.2.2) - (r.2.2 - p.2.2) * (s.1 - p.1)) +
  (q.2.2 - p.2.2) * ((r.1 - p.1) * (s.2.1 - p.2.1) - (r.2.1 - p.2.1) * (s.1 - p.1))

theorem tetrahedron_positions :
    positionsOf ((tetrahedron.map fun p => positionRecord p.1 p.2.1 p.2.2).map (pointOf positionLayout)) =
      tetrahedron.map fun p => ⟨Flt.ofInt .f64 p.1, Flt.ofInt .f64 p.2.1, Flt.ofInt .f64 p.2.2⟩ := by decide +kernel

theorem tetrahedron_real :
    (tetrahedron.map fun p => (⟨Flt.ofInt .f64 p.1, Flt.ofInt .f64 p.2.1, Flt.ofInt .f64 p.2.2⟩ : P3 F64)).map realPoint =
      tetrahedron.map fun p => ⟨p.1, p.2.1, p.2.2⟩ := by
  rw [List.map_map]
  apply List.map_congr_left
  intro p hp
  have small : ∀ p ∈ tetrahedron, |p.1| ≤ 2 ^ 53 ∧ |p.2.1| ≤ 2 ^ 53 ∧ |p.2.2| ≤ 2 ^ 53 := by decide
  obtain ⟨s1, s2, s3⟩ := small p hp
  simp only [Function.comp, realPoint, (whole_of_int s1).value_eq, (whole_of_int s2).value_eq, (whole_of_int s3).value_eq]
  push_cast
  rfl

theorem tetrahedron_general : GeneralPosition (tetrahedron.map fun p => ⟨p.1, p.2.1, p.2.2⟩) := by
  have hz : ∀ i j k l : Fin 5, [i, j, k, l].Nodup → volumeZ tetrahedron[i] tetrahedron[j] tetrahedron[k] tetrahedron[l] ≠ 0 := by
    decide +kernel
  intro i j k l hn
  have h := hz i j k l hn
  have e : volume (⟨(tetrahedron[i].1 : ℝ), tetrahedron[i].2.1, tetrahedron[i].2.2⟩ : P3 ℝ)
      ⟨tetrahedron[j].1, tetrahedron[j].2.1, tetrahedron[j].2.2⟩ ⟨tetrahedron[k].1, tetrahedron[k].2.1, tetrahedron[k].2.2⟩
      ⟨tetrahedron[l].1, tetrahedron[l].2.1, tetrahedron[l].2.2⟩ =
      (volumeZ tetrahedron[i] tetrahedron[j] tetrahedron[k] tetrahedron[l] : Int) := by
    simp only [volume, volumeZ]
    push_cast
    ring
  simp only [Fin.getElem_fin, List.getElem_map] at e ⊢
  rw [e]
  exact_mod_cast h

/-- The point inside of the tetrahedron is not returned. -/
example : ∃ mesh indices, convexHullAsTriangleMesh List.reverse (hullBuffer tetrahedron) = .ok mesh ∧
    convexHullAsPoints List.reverse List.reverse (hullBuffer tetrahedron) = .ok indices ∧
    HullMesh (tetrahedron.map fun p => ⟨p.1, p.2.1, p.2.2⟩) mesh ∧ ∀ i, i ∈ indices ↔ IsVertex mesh i := by
  have hp := tetrahedron_positions
  have hr := tetrahedron_real
  obtain ⟨mesh, indices, h1, h2, h3, h4, _⟩ := C71_partial (hullBuffer tetrahedron) positionLayout positionLayout_solid _ tetrahedron_shows
    (by decide +kernel) List.reverse (fun es => es.reverse_perm) (by decide) (by rw [hp, hr]; exact tetrahedron_general)
    (by
      rw [hp]
      intro q hq
      obtain ⟨p, hp, rfl⟩ := List.mem_map.1 hq
      have small : ∀ p ∈ tetrahedron, |p.1| ≤ 1000 ∧ |p.2.1| ≤ 1000 ∧ |p.2.2| ≤ 1000 := by decide
      obtain ⟨s1, s2, s3⟩ := small p hp
      have whole : ∀ z : Int, |z| ≤ 1000 → SmallWhole (Flt.ofInt .f64 z) := by
        intro z hz
        have hw := whole_of_int (z := z) (hz.trans (by norm_num))
        exact ⟨hw.finite, z, hz, hw.value_eq⟩
      exact ⟨whole _ s1, whole _ s2, whole _ s3⟩) List.reverse (fun es => es.reverse_perm)
  rw [hp, hr] at h3
  exact ⟨mesh, indices, h1, h2, h3, h4⟩

/-- In exact arithmetic. -/
example : ∃ ts, forLoop ((List.range 5).zip (tetrahedron.map fun p => (⟨p.1, p.2.1, p.2.2⟩ : P3 ℝ))) []
    (iteration id fun i => expectSome (tetrahedron.map fun p => (⟨p.1, p.2.1, p.2.2⟩ : P3 ℝ))[i]?) = .ok ts ∧
    HullMesh (tetrahedron.map fun p => ⟨p.1, p.2.1, p.2.2⟩) (meshOf ts) := by
  obtain ⟨ts, h1, h2, _⟩ := C71_exact_partial _ tetrahedron_general (by decide) id fun _ => .refl _
  exact ⟨ts, h1, h2⟩

end HullExample

end Pasture.Props
