import Verif.Model.ConvertingView
import Verif.Model.Ransac

/-!
# Model of `pasture-algorithms/src/convexhull.rs`

As in `Model/Vec3.lean`, the algorithm is written for any type of numbers. `look i` is
`buffer.view_attribute(&POSITION_3D).at(i)`. A `HashSet<Edge>` is a list without equal edges; the order in which it is
iterated over is a parameter. (The hash of an edge is the product of its ends, convexhull.rs:28-32; its overflow, which
needs more than 2^32 points and a build with overflow checks, is not modelled.)
-/

namespace Pasture.Hull

/-- `Triangle`, convexhull.rs:9-14. -/
structure Tri (α : Type) where
  a : Nat
  b : Nat
  c : Nat
  normal : P3 α
  deriving DecidableEq, Repr

/-- `Edge`, convexhull.rs:17-20. -/
structure Edge where
  a : Nat
  b : Nat
  deriving DecidableEq, Repr

/-- `eq`, convexhull.rs:23-25. -/
def Edge.same (e f : Edge) : Bool := e.a == f.a && e.b == f.b || e.a == f.b && e.b == f.a

/-- `HashSet::contains`. -/
def edgeContains (s : List Edge) (e : Edge) : Bool := s.any fun f => f.same e

/-- `HashSet::insert`: the new set, and whether the edge was missing. -/
def edgeInsert (s : List Edge) (e : Edge) : List Edge × Bool :=
  if edgeContains s e then (s, false) else (s ++ [e], true)

/-- `HashSet::remove`. -/
def edgeRemove (s : List Edge) (e : Edge) : List Edge := s.filter fun f => !f.same e

/-- `Vec::remove`. -/
def vecRemove {τ : Type} (xs : List τ) (i : Nat) : Out (List τ) :=
  if i < xs.length then .ok (xs.eraseIdx i) else panicked

/-- `add_edge_to_outer_or_inner_edges`, convexhull.rs:439-450; the sets are (outer, inner). -/
def addEdge (a b : Nat) (sets : List Edge × List Edge) : List Edge × List Edge :=
  let e : Edge := ⟨a, b⟩
  let (outer, fresh) := edgeInsert sets.1 e
  if fresh then (outer, sets.2) else (edgeRemove outer e, (edgeInsert sets.2 e).1)

section
open Arith
variable {α : Type} [Arith α]

/-- `calc_normal`, convexhull.rs:456-460. -/
def calcNormal (a b c : P3 α) : P3 α := Vec3.cross (Vec3.sub b a) (Vec3.sub c a)

/-- `dist_point_to_edge`, convexhull.rs:398-408. -/
def distPointToEdge (point edgeA edgeB triangleNormal : P3 α) : α :=
  let pa := Vec3.sub edgeA point
  let edgeAb := Vec3.sub edgeB edgeA
  let edgeAbNormal := Vec3.cross triangleNormal edgeAb
  Vec3.dot edgeAbNormal pa

/-- `dist_point_to_line_segment`, convexhull.rs:414-432. -/
def distPointToLineSegment (point segmentA segmentB : P3 α) : α :=
  let ab := Vec3.sub segmentB segmentA
  let ap := Vec3.sub point segmentA
  if le (Vec3.dot ap ab) zero then Vec3.norm ap
  else
    let bp := Vec3.sub point segmentB
    if le zero (Vec3.dot bp ab) then Vec3.norm bp
    else div (Vec3.norm (Vec3.cross ab ap)) (Vec3.norm ab)

/-- The branch for a single triangle, convexhull.rs:136-172; `first` is that triangle. -/
def extendFirst (look : Nat → Out (P3 α)) (pointid : Nat) (point : P3 α) (first : Tri α) : Out (List (Tri α)) :=
  if pointid = 1 then .ok [{ first with b := pointid }]
  else do
    let firstA ← look first.a
    let firstB ← look first.b
    let ab := Vec3.sub firstB firstA
    let abMagSqr := Vec3.magnitudeSquared ab
    if eq abMagSqr zero then pure [{ first with b := pointid }]
    else
      let ac := Vec3.sub point firstA
      let abNorm := Vec3.normalize ab
      let projected := Vec3.dot ac abNorm
      if eq (abs projected) (Vec3.norm ac) then
        if le zero projected then
          if lt abMagSqr (Vec3.magnitudeSquared ac) then pure [{ first with b := pointid }] else pure [first]
        else pure [{ first with a := pointid }]
      else
        let normal := calcNormal firstA firstB point
        let first := { first with c := pointid, normal := normal }
        pure [first, ⟨first.a, first.c, first.b, Vec3.neg first.normal⟩]

/-! ## Points outside of the hull -/

/-- The state of `triangles.retain(..)`: the triangles kept, `outer_edges`, `inner_edges`, `planar_triangles`. -/
structure Sweep (α : Type) where
  kept : List (Tri α)
  outer : List Edge
  inner : List Edge
  planar : List (Tri α)

/-- The closure passed to `retain`, convexhull.rs:178-191. -/
def sweepStep (look : Nat → Out (P3 α)) (point : P3 α) (s : Sweep α) (tri : Tri α) : Out (Sweep α) := do
  let triA ← look tri.a
  let pa := Vec3.sub triA point
  let dot := Vec3.dot pa tri.normal
  if lt dot zero then
    let sets := addEdge tri.c tri.a (addEdge tri.b tri.c (addEdge tri.a tri.b (s.outer, s.inner)))
    pure { s with outer := sets.1, inner := sets.2 }
  else if eq dot zero then pure { s with planar := s.planar ++ [tri], kept := s.kept ++ [tri] }
  else pure { s with kept := s.kept ++ [tri] }

/-- Body of the loop over the outer edges, convexhull.rs:194-203. -/
def coneStep (look : Nat → Out (P3 α)) (pointid : Nat) (point : P3 α) (triangles : List (Tri α)) (edge : Edge) :
    Out (List (Tri α)) := do
  let edgeA ← look edge.a
  let edgeB ← look edge.b
  pure (triangles ++ [⟨edge.a, edge.b, pointid, calcNormal edgeA edgeB point⟩])

/-! ## Points in the plane of a triangle -/

/-- `edges_facing_point` and `edge_triangle_id`. -/
structure Facing where
  edges : List Edge
  ids : List Nat

/-- `edges_facing_point.push(..); edge_triangle_id.push(i)` if the edge faces the point. -/
def Facing.push (s : Facing) (dist : α) (e : Edge) (i : Nat) : Facing :=
  if le zero dist then ⟨s.edges ++ [e], s.ids ++ [i]⟩ else s

/-- The loop over the planar triangles, convexhull.rs:209-232. -/
def facingLoop (look : Nat → Out (P3 α)) (point : P3 α) : List (Nat × Tri α) → Facing → Out Facing
  | [], s => .ok s
  | (i, pt) :: rest, s => do
    let a ← look pt.a
    let b ← look pt.b
    let c ← look pt.c
    let distAb := distPointToEdge point a b pt.normal
    let s := s.push distAb ⟨pt.a, pt.b⟩ i
    let distBc := distPointToEdge point b c pt.normal
    let s := s.push distBc ⟨pt.b, pt.c⟩ i
    let distCa := distPointToEdge point c a pt.normal
    let s := s.push distCa ⟨pt.c, pt.a⟩ i
    if lt distAb zero && lt distBc zero && lt distCa zero then pure { s with edges := [] }
    else facingLoop look point rest s

/-- What the loop over the other edges knows about the edge, convexhull.rs:237-244. -/
structure EdgeInfo (α : Type) where
  a : P3 α
  b : P3 α
  distA : α
  distB : α
  dist : α
  normal : P3 α

/-- The conditions under which the edge is occluded by another one, convexhull.rs:252-301. -/
def occludes (point : P3 α) (e : EdgeInfo α) (otherA otherB otherNormal : P3 α) : Bool :=
  let pointA := Vec3.sub otherA point
  let pointB := Vec3.sub otherB point
  let normA := Vec3.cross otherNormal pointA
  let normB := Vec3.cross otherNormal pointB
  let aBorderA := Vec3.dot normA (Vec3.sub e.a otherA)
  let bBorderA := Vec3.dot normA (Vec3.sub e.b otherA)
  let aBorderB := Vec3.dot normB (Vec3.sub e.a otherB)
  let bBorderB := Vec3.dot normB (Vec3.sub e.b otherB)
  let nearest := min (Vec3.magnitudeSquared pointA) (Vec3.magnitudeSquared pointB)
  ((lt aBorderA zero && lt zero aBorderB) && lt nearest e.distA) ||
    ((lt bBorderA zero && lt zero bBorderB) && lt nearest e.distB) ||
    (((lt aBorderA zero && lt zero bBorderB) || (lt bBorderA zero && lt zero aBorderB)) &&
      lt (distPointToLineSegment point otherA otherB) e.dist)

/-- The loop over the other edges, convexhull.rs:246-304: whether one of them occludes edge `i`. -/
def occludedLoop (look : Nat → Out (P3 α)) (point : P3 α) (planar : List (Tri α)) (s : Facing) (i : Nat)
    (e : EdgeInfo α) : List Nat → Out Bool
  | [] => .ok false
  | j :: js =>
    if j = i then occludedLoop look point planar s i e js
    else do
      let id ← expectSome s.ids[j]?
      let other ← expectSome planar[id]?
      if lt zero (Vec3.dot e.normal other.normal) then
        let edge ← expectSome s.edges[j]?
        let otherA ← look edge.a
        let otherB ← look edge.b
        if occludes point e otherA otherB other.normal then pure true
        else occludedLoop look point planar s i e js
      else occludedLoop look point planar s i e js

/-- The loop that removes occluded edges, convexhull.rs:235-311, downwards from edge `n - 1`; also
    `edge_triangle_normals`. -/
def occlusionLoop (look : Nat → Out (P3 α)) (point : P3 α) (planar : List (Tri α)) :
    Nat → Facing → List (P3 α) → Out (Facing × List (P3 α))
  | 0, s, normals => .ok (s, normals)
  | i + 1, s, normals => do
    let edge ← expectSome s.edges[i]?
    let a ← look edge.a
    let b ← look edge.b
    let id ← expectSome s.ids[i]?
    let tri ← expectSome planar[id]?
    let info : EdgeInfo α := ⟨a, b, Vec3.magnitudeSquared (Vec3.sub a point), Vec3.magnitudeSquared (Vec3.sub b point),
      distPointToLineSegment point a b, tri.normal⟩
    let remove ← occludedLoop look point planar s i info (List.range s.edges.length)
    if remove then
      let edges ← vecRemove s.edges i
      let ids ← vecRemove s.ids i
      occlusionLoop look point planar i ⟨edges, ids⟩ normals
    else occlusionLoop look point planar i s (Vec3.neg tri.normal :: normals)

/-- `HashMap::insert`, and `remove` again together with an insertion into `vertices_on_two_edges` if there was a different
    value, convexhull.rs:321-328, 329-336. Of the values of the maps only the vertex at the other end is used, and of
    `vertices_on_two_edges` only the keys: (map, keys). -/
def vertexStep (maps : List (Nat × Nat) × List Nat) (vertex other : Nat) : List (Nat × Nat) × List Nat :=
  let without := maps.1.filter fun e => e.1 != vertex
  match maps.1.lookup vertex with
  | none => ((vertex, other) :: without, maps.2)
  | some old => if old ≠ other then (without, vertex :: maps.2) else ((vertex, other) :: without, maps.2)

/-- The loop over the facing edges, convexhull.rs:317-337: the keys of `vertices_on_two_edges`. -/
def verticesOnTwoEdges (edges : List Edge) : List Nat :=
  (edges.foldl (fun (m : List (Nat × Nat) × List (Nat × Nat) × List Nat) e =>
    let (starts, two) := vertexStep (m.1, m.2.2) e.a e.b
    let (ends, two) := vertexStep (m.2.1, two) e.b e.a
    (starts, ends, two)) ([], [], [])).2.2

/-- The state of the loop over the triangles: `triangles_to_remove`, `edges_facing_point`, `edges_to_remove`,
    `edge_triangle_normals`. -/
structure Prune (α : Type) where
  removed : List Nat
  edges : List Edge
  drop : List Edge
  normals : List (P3 α)

/-- `edges_facing_point.push(e); edges_to_remove.insert(f); edges_to_remove.insert(g); edge_triangle_normals.push(n)`. -/
def Prune.add (s : Prune α) (e f g : Edge) (n : P3 α) : Prune α :=
  { s with edges := s.edges ++ [e], drop := (edgeInsert (edgeInsert s.drop f).1 g).1, normals := s.normals ++ [n] }

/-- Body of the loop over the triangles, convexhull.rs:338-368. -/
def pruneStep (two : List Nat) (s : Prune α) (it : Nat × Tri α) : Prune α :=
  let tri := it.2
  let onA := two.contains tri.a
  let onB := two.contains tri.b
  let onC := two.contains tri.c
  if onA || onB || onC then
    let s := { s with removed := s.removed ++ [it.1] }
    let s := if onC then s.add ⟨tri.a, tri.b⟩ ⟨tri.b, tri.c⟩ ⟨tri.c, tri.a⟩ tri.normal else s
    let s := if onB then s.add ⟨tri.c, tri.a⟩ ⟨tri.a, tri.b⟩ ⟨tri.b, tri.c⟩ tri.normal else s
    if onA then s.add ⟨tri.b, tri.c⟩ ⟨tri.c, tri.a⟩ ⟨tri.a, tri.b⟩ tri.normal else s
  else s

/-- The loop that removes edges, convexhull.rs:372-377, downwards from edge `n - 1`. -/
def dropLoop (drop : List Edge) : Nat → List Edge → List (P3 α) → Out (List Edge × List (P3 α))
  | 0, edges, normals => .ok (edges, normals)
  | i + 1, edges, normals => do
    let e ← expectSome edges[i]?
    if edgeContains drop e then
      let edges ← vecRemove edges i
      let normals ← vecRemove normals i
      dropLoop drop i edges normals
    else dropLoop drop i edges normals

/-- Triangles with vertices on two facing edges are removed, convexhull.rs:313-378: triangles, edges, normals. -/
def prune (triangles : List (Tri α)) (edges : List Edge) (normals : List (P3 α)) :
    Out (List (Tri α) × List Edge × List (P3 α)) :=
  if edges.length > 2 then do
    let two := verticesOnTwoEdges edges
    let s := ((List.range triangles.length).zip triangles).foldl (pruneStep two) ⟨[], edges, [], normals⟩
    let triangles ← forLoop s.removed.reverse triangles vecRemove
    let (edges, normals) ← dropLoop s.drop s.edges.length s.edges s.normals
    pure (triangles, edges, normals)
  else .ok (triangles, edges, normals)

/-- Body of the last loop, convexhull.rs:380-388. -/
def fanStep (pointid : Nat) (edges : List Edge) (normals : List (P3 α)) (triangles : List (Tri α)) (i : Nat) :
    Out (List (Tri α)) := do
  let e ← expectSome edges[i]?
  let n ← expectSome normals[i]?
  pure (triangles ++ [⟨e.a, e.b, pointid, n⟩])

/-- The branch for a point in the plane of triangles, convexhull.rs:204-389. -/
def planarStep (look : Nat → Out (P3 α)) (pointid : Nat) (point : P3 α) (triangles planar : List (Tri α)) :
    Out (List (Tri α)) := do
  let s ← facingLoop look point ((List.range planar.length).zip planar) ⟨[], []⟩
  let (s, normals) ← occlusionLoop look point planar s.edges.length s []
  let (triangles, edges, normals) ← prune triangles s.edges normals
  forLoop (List.range edges.length) triangles (fanStep pointid edges normals)

/-- `iteration`, convexhull.rs:123-391. -/
def iteration (order : List Edge → List Edge) (look : Nat → Out (P3 α)) (triangles : List (Tri α))
    (ip : Nat × P3 α) : Out (List (Tri α)) :=
  let pointid := ip.1
  let point := ip.2
  if pointid = 0 then .ok (triangles ++ [⟨0, 0, 0, point⟩])
  else
    match triangles with
    | [first] => extendFirst look pointid point first
    | _ => do
      let s ← forLoop triangles ⟨[], [], [], []⟩ (sweepStep look point)
      if ¬ s.outer.isEmpty ∨ ¬ s.inner.isEmpty then forLoop (order s.outer) s.kept (coneStep look pointid point)
      else planarStep look pointid point s.kept s.planar

end

/-! ## The functions of the API -/

open BorrowedBuffer

/-- The positions the loops of `create_convex_hull` go over, convexhull.rs:86-110. The code reads each of them just
    before its iteration. -/
def hullPositions {β : Type} [BorrowedBuffer β] (b : β) : Out (List (P3 F64)) := do
  let m ← expectSome ((layout b).getAttributeByName position3D.name)
  if m.datatype = position3D.datatype then do
    let view ← AttributeView.new b .vec3f64 position3D
    let xs ← view.values b
    pure (xs.map readVec3F64)
  else do
    let view ← Voxel.unwrap (ConvertingView.new b .vec3f64 position3D)
    let xs ← view.values b
    pure (xs.map readVec3F64)

/-- `create_convex_hull`, convexhull.rs:84-112. -/
def createConvexHull {β : Type} [BorrowedBuffer β] (order : List Edge → List Edge) (b : β) : Out (List (Tri F64)) := do
  let ps ← hullPositions b
  forLoop ((List.range ps.length).zip ps) [] (iteration order (Ransac.positionAt b))

/-- `convex_hull_as_triangle_mesh`, convexhull.rs:41-55. -/
def convexHullAsTriangleMesh {β : Type} [BorrowedBuffer β] (order : List Edge → List Edge) (b : β) :
    Out (List (P3 Nat)) := do
  let triangles ← createConvexHull order b
  bailIf (triangles.length < 2)
  pure (triangles.map fun t => ⟨t.a, t.b, t.c⟩)

/-- `HashSet::insert`. -/
def setInsert (s : List Nat) (x : Nat) : List Nat := if s.contains x then s else s ++ [x]

/-- `convex_hull_as_points`, convexhull.rs:63-82; `collect` is the order of the result. -/
def convexHullAsPoints {β : Type} [BorrowedBuffer β] (order : List Edge → List Edge) (collect : List Nat → List Nat)
    (b : β) : Out (List Nat) := do
  let triangles ← createConvexHull order b
  if triangles.length > 1 then
    pure (collect (triangles.foldl (fun s t => setInsert (setInsert (setInsert s t.a) t.b) t.c) []))
  else
    let tri ← expectSome triangles[0]?
    let s := setInsert (setInsert [] tri.a) tri.b
    pure (collect (if tri.c ≠ 0 then setInsert s tri.c else s))

end Pasture.Hull
