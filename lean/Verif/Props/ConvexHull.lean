import Verif.Lemmas.ConvexHull
import Verif.Spec.ConvexHull
import Verif.Props.Ransac

/-!
# The convex hull: C60
-/

namespace Pasture.Props

open Spec Hull BorrowedBuffer

/-- What the loop over `insert`s collects. -/
theorem setInsert_nodup {s : List Nat} (h : s.Nodup) (x : Nat) : (setInsert s x).Nodup := by
  unfold setInsert
  split
  · exact h
  · rename_i hn
    rw [List.nodup_append]
    refine ⟨h, by simp, ?_⟩
    intro a ha b hb e
    apply hn
    rw [List.mem_singleton.1 hb] at e
    rw [← e]
    simpa using ha

theorem setInsert_mem {s : List Nat} {x y : Nat} : y ∈ setInsert s x ↔ y ∈ s ∨ y = x := by
  unfold setInsert
  split
  · rename_i h
    have : x ∈ s := by simpa using h
    constructor
    · exact .inl
    · rintro (h | rfl)
      · exact h
      · exact this
  · simp

theorem collect_points (ts : List (Tri F64)) : ∀ s : List Nat, s.Nodup →
    (ts.foldl (fun s t => setInsert (setInsert (setInsert s t.a) t.b) t.c) s).Nodup ∧
    ∀ i, i ∈ ts.foldl (fun s t => setInsert (setInsert (setInsert s t.a) t.b) t.c) s ↔
      i ∈ s ∨ ∃ t ∈ ts, i = t.a ∨ i = t.b ∨ i = t.c := by
  induction ts with
  | nil => intro s h; exact ⟨h, by simp⟩
  | cons t ts ih =>
    intro s h
    obtain ⟨h1, h2⟩ := ih _ (setInsert_nodup (setInsert_nodup (setInsert_nodup h t.a) t.b) t.c)
    refine ⟨h1, ?_⟩
    intro i
    rw [List.foldl_cons, h2]
    simp only [setInsert_mem, List.mem_cons, exists_eq_or_imp, or_assoc]

theorem positions_hull {β : Type} [BorrowedBuffer β] {b : β} {l : PointLayout} {ps : List Point} (hl : Solid l)
    (h : ShowsPoints b l ps) (hpos : position3D ∈ l.attributes.map Member.definition) :
    hullPositions b = .ok (positionsOf ps) := by
  obtain ⟨m, hm, hd⟩ := List.mem_map.1 hpos
  obtain ⟨xs, hx, ha⟩ := column_some hl h hm
  have hx' : xs = ps.filterMap fun p => p.get position3D := by rw [← hd]; exact column_all hx
  have hposs : positionsOf ps = xs.map readVec3F64 := by unfold positionsOf; rw [← hx']; rfl
  have hty : m.datatype = .vec3f64 := by
    show m.definition.datatype = _
    rw [hd]
    rfl
  unfold hullPositions
  rw [h.layout_eq, byName_of_mem' hl hm (n := position3D.name) (by show m.definition.name = _; rw [hd])]
  simp only [expectSome, bind, Except.bind]
  rw [if_pos (show m.datatype = position3D.datatype from hty), show AttributeView.new b .vec3f64 position3D = .ok ⟨.vec3f64, m⟩ from
    (C62_attribute_view_checks b l hl ps h _ _).1 rfl m hm hd]
  dsimp only
  rw [← hty, view_values hl h hm hx, hposs]
  rfl

section
variable {β : Type} [BorrowedBuffer β] (b : β) (l : PointLayout) (hl : Solid l) (ps : List Point) (h : ShowsPoints b l ps)
  (hpos : position3D ∈ l.attributes.map Member.definition) (order : List Edge → List Edge)
  (horder : ∀ es, (order es).Perm es)
include hl h hpos horder

/-- C60: after `k` iterations the triangles refer to the first `k` points. -/
theorem C60_iterations (k : Nat) (hk : k ≤ ps.length) :
    ∃ ts, forLoop (((List.range (positionsOf ps).length).zip (positionsOf ps)).take k) []
        (iteration order (Ransac.positionAt b)) = .ok ts ∧
      (∀ t ∈ ts, t.a < k ∧ t.b < k ∧ t.c < k) ∧ (ts.length ≠ 1 → MeshOf k (ts.map fun t => ⟨t.a, t.b, t.c⟩)) := by
  obtain ⟨h1, h2, h3⟩ := positions_get hl h hpos
  obtain ⟨ts, h4, h5⟩ := iterations_total (look := Ransac.positionAt b) order horder (positionsOf ps)
    (fun j hj => by obtain ⟨p, hp, _⟩ := h3 j (by omega); exact ⟨p, hp⟩) k (by omega)
  refine ⟨ts, h4, h5.below, ?_⟩
  intro hne t ht
  obtain ⟨u, hu, rfl⟩ := List.mem_map.1 ht
  have hg := h5.proper hne u hu
  exact ⟨⟨hg.a_lt, hg.b_lt, hg.c_lt⟩, hg.ab, hg.bc, hg.ca⟩

theorem create_hull : ∃ ts, createConvexHull order b = .ok ts ∧ (∀ t ∈ ts, t.a < ps.length ∧ t.b < ps.length ∧ t.c < ps.length) ∧
    (ts.length ≠ 1 → MeshOf ps.length (ts.map fun t => ⟨t.a, t.b, t.c⟩)) := by
  obtain ⟨h1, _⟩ := positions_get hl h hpos
  obtain ⟨ts, h2, h3⟩ := C60_iterations b l hl ps h hpos order horder ps.length (Nat.le_refl _)
  refine ⟨ts, ?_, h3⟩
  unfold createConvexHull
  rw [positions_hull hl h hpos]
  rw [List.take_of_length_le (by simp [h1])] at h2
  exact h2

/-- C60: `convex_hull_as_triangle_mesh` returns an error or at least two triangles of points of the buffer; it does not
    panic if the positions are `Vec3f64`s. -/
theorem C60_mesh_partial : convexHullAsTriangleMesh order b = .error .err ∨
    ∃ mesh, convexHullAsTriangleMesh order b = .ok mesh ∧ 2 ≤ mesh.length ∧ MeshOf ps.length mesh := by
  obtain ⟨ts, h1, h2, h3⟩ := create_hull b l hl ps h hpos order horder
  unfold convexHullAsTriangleMesh
  rw [h1]
  simp only [bind, Except.bind]
  by_cases hlen : ts.length < 2
  · left
    simp [bailIf, hlen]
  · right
    refine ⟨ts.map fun t => ⟨t.a, t.b, t.c⟩, ?_, ?_, h3 (by omega)⟩
    · simp [bailIf, hlen, pure, Except.pure]
    · simp; omega

/-- C60: what `convex_hull_as_points` returns are points of the buffer; it panics exactly if no triangle is left. -/
theorem C60_points_partial (collect : List Nat → List Nat) (hcollect : ∀ s, (collect s).Perm s) :
    (createConvexHull order b = .ok [] ∧ convexHullAsPoints order collect b = .error .panic) ∨
    ∃ indices, convexHullAsPoints order collect b = .ok indices ∧ PointsOf ps.length indices ∧ indices ≠ [] := by
  obtain ⟨ts, h1, h2, h3⟩ := create_hull b l hl ps h hpos order horder
  have fine : ∀ s : List Nat, s.Nodup → (∀ i ∈ s, i < ps.length) → PointsOf ps.length (collect s) := by
    intro s s1 s2
    exact ⟨(hcollect s).nodup_iff.2 s1, fun i hi => s2 i ((hcollect s).mem_iff.1 hi)⟩
  have full : ∀ (s : List Nat) (x : Nat), x ∈ s → collect s ≠ [] := by
    intro s x hx e
    have := (hcollect s).mem_iff.2 hx
    rw [e] at this
    cases this
  unfold convexHullAsPoints
  rw [h1]
  simp only [bind, Except.bind]
  by_cases hlen : ts.length > 1
  · rw [if_pos hlen]
    obtain ⟨c1, c2⟩ := collect_points ts [] .nil
    right
    refine ⟨_, rfl, fine _ c1 ?_, ?_⟩
    · intro i hi
      rcases (c2 i).1 hi with hi | ⟨t, ht, hi⟩
      · cases hi
      · obtain ⟨b1, b2, b3⟩ := h2 t ht
        rcases hi with rfl | rfl | rfl <;> assumption
    · cases ts with
      | nil => exact absurd hlen (by decide)
      | cons t ts => exact full _ t.a ((c2 _).2 (.inr ⟨t, List.mem_cons_self, .inl rfl⟩))
  · rw [if_neg hlen]
    cases ts with
    | nil => left; exact ⟨rfl, rfl⟩
    | cons t ts =>
      right
      obtain ⟨b1, b2, b3⟩ := h2 t List.mem_cons_self
      refine ⟨_, rfl, ?_, ?_⟩
      · have hn := setInsert_nodup (setInsert_nodup (List.nodup_nil) t.a) t.b
        split
        · refine fine _ (setInsert_nodup hn t.c) ?_
          intro i hi
          simp only [setInsert_mem, List.not_mem_nil, false_or] at hi
          rcases hi with (rfl | rfl) | rfl <;> assumption
        · refine fine _ hn ?_
          intro i hi
          simp only [setInsert_mem, List.not_mem_nil, false_or] at hi
          rcases hi with rfl | rfl <;> assumption
      · split
        · exact full _ t.a (by simp [setInsert_mem])
        · exact full _ t.a (by simp [setInsert_mem])

end

/-! ## Panics -/

/-- C60 fails for an empty buffer: `convex_hull_as_points` panics, `convex_hull_as_triangle_mesh` does not. -/
theorem C60_violated_empty {β : Type} [BorrowedBuffer β] (b : β) (l : PointLayout) (hl : Solid l) (h : ShowsPoints b l [])
    (hpos : position3D ∈ l.attributes.map Member.definition) (order : List Edge → List Edge) (collect : List Nat → List Nat) :
    convexHullAsPoints order collect b = .error .panic ∧ convexHullAsTriangleMesh order b = .error .err := by
  have hc : createConvexHull order b = .ok [] := by
    unfold createConvexHull
    rw [positions_hull hl h hpos]
    rfl
  unfold convexHullAsPoints convexHullAsTriangleMesh
  rw [hc]
  exact ⟨rfl, rfl⟩

/-- Both functions panic for every buffer with at least three points whose positions are not `Vec3f64`s, whether or not
    they can be converted. -/
theorem C60_violated_datatype {β : Type} [BorrowedBuffer β] (b : β) (l : PointLayout) (hl : Solid l) (ps : List Point)
    (h : ShowsPoints b l ps) (m : Member) (hm : m ∈ l.attributes) (hname : m.name = "Position3D")
    (hty : m.datatype ≠ .vec3f64) (h3 : 3 ≤ ps.length) (order : List Edge → List Edge) (collect : List Nat → List Nat) :
    convexHullAsPoints order collect b = .error .panic ∧ convexHullAsTriangleMesh order b = .error .panic := by
  suffices hc : createConvexHull order b = .error .panic by
    unfold convexHullAsPoints convexHullAsTriangleMesh
    rw [hc]
    exact ⟨rfl, rfl⟩
  unfold createConvexHull hullPositions
  rw [h.layout_eq, byName_of_mem' hl hm (n := position3D.name) hname]
  simp only [expectSome, bind, Except.bind]
  rw [if_neg (by intro e; exact hty e)]
  cases hf : conversion m.datatype .vec3f64 with
  | none =>
    rw [show ConvertingView.new b .vec3f64 position3D = .error .panic from
      C64_rejects b l hl ps h .vec3f64 position3D (.inr (.inr ⟨m, hm, hname, hf⟩))]
    rfl
  | some f =>
    obtain ⟨v, h1, h2⟩ := converting_values hl h (d := position3D) hm hname hf
    rw [show ConvertingView.new b .vec3f64 position3D = .ok v from h1]
    simp only [Voxel.unwrap, h2, pure, Except.pure]
    obtain ⟨xs, hx, _⟩ := column_some hl h hm
    rw [← column_all hx, List.map_map]
    have hlen : 3 ≤ xs.length := by rw [(column_get hx).1]; exact h3
    match xs, hlen with
    | x0 :: x1 :: x2 :: rest, _ =>
      have hr : List.range (rest.length + 1 + 1 + 1) = 0 :: 1 :: 2 :: List.range' 3 rest.length := by
        rw [List.range_eq_range', List.range'_succ, List.range'_succ, List.range'_succ]
      simp only [List.map_cons, List.length_cons, List.length_map, hr, List.zip_cons_cons, forLoop_cons]
      have hlook : ∀ i, Ransac.positionAt b i = .error .panic := by
        intro i
        unfold Ransac.positionAt Voxel.valueAt
        rw [(C62_attribute_view_checks b l hl ps h .vec3f64 position3D).2 ?_]
        · rfl
        · rintro ⟨_, hc⟩
          obtain ⟨m', hm', hd⟩ := List.mem_map.1 hc
          have e1 := byName_of_mem' hl hm (n := position3D.name) hname
          rw [byName_of_mem' hl hm' (n := position3D.name) (by show m'.definition.name = _; rw [hd])] at e1
          rw [Option.some.inj e1] at hd
          apply hty
          show m.definition.datatype = _
          rw [hd]
          rfl
      simp only [iteration, extendFirst, hlook, bind, Except.bind]
      rfl

/-! Examples; the outer edges are visited in the order of insertion. -/

namespace HullExample

open RansacExample

def hullBuffer (ps : List (Int × Int × Int)) : VectorBuffer :=
  Interleaved.ofRecords positionLayout (ps.map fun p => positionRecord p.1 p.2.1 p.2.2)

/-- Four different points that do not lie on a line. -/
def quad : List (Int × Int × Int) := [(0, 2, 0), (0, 1, 1), (0, 0, 2), (0, 0, 1)]

end HullExample

open HullExample in
/-- No triangle is left. -/
theorem C60_violated_rounding (collect : List Nat → List Nat) :
    convexHullAsPoints id collect (hullBuffer quad) = .error .panic ∧
    convexHullAsTriangleMesh id (hullBuffer quad) = .error .err := by
  have hc : createConvexHull id (hullBuffer quad) = .ok [] := by decide +kernel
  unfold convexHullAsPoints convexHullAsTriangleMesh
  rw [hc]
  exact ⟨rfl, rfl⟩

namespace HullExample

open RansacExample

/-- A tetrahedron and a point inside. -/
def tetrahedron : List (Int × Int × Int) := [(0, 0, 0), (4, 0, 0), (0, 4, 0), (1, 1, 1), (0, 0, 4)]

theorem tetrahedron_shows : ShowsPoints (hullBuffer tetrahedron) positionLayout
    ((tetrahedron.map fun p => positionRecord p.1 p.2.1 p.2.2).map (pointOf positionLayout)) :=
  interleaved_shows_points positionLayout_solid (by unfold AllLen; decide +kernel)

example : convexHullAsPoints id id (hullBuffer tetrahedron) = .ok [0, 2, 1, 4] ∧
    convexHullAsTriangleMesh id (hullBuffer tetrahedron) = .ok [⟨0, 2, 1⟩, ⟨0, 1, 4⟩, ⟨1, 2, 4⟩, ⟨2, 0, 4⟩] := by
  decide +kernel

/-- The hypotheses of the theorems hold for this buffer. -/
example : convexHullAsTriangleMesh List.reverse (hullBuffer tetrahedron) = .error .err ∨
    ∃ mesh, convexHullAsTriangleMesh List.reverse (hullBuffer tetrahedron) = .ok mesh ∧ 2 ≤ mesh.length ∧ MeshOf 5 mesh :=
  C60_mesh_partial (hullBuffer tetrahedron) positionLayout positionLayout_solid _ tetrahedron_shows (by decide +kernel)
    List.reverse fun es => es.reverse_perm

/-- Three points with `Vec3f32` positions. -/
def floats : VectorBuffer := exPositions .vec3f32 (zeros 36) 3

example : convexHullAsPoints id id floats = .error .panic := by decide +kernel

end HullExample

end Pasture.Props
