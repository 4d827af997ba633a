import Verif.Spec.PntsDetour
import Verif.Props.Pnts
import Verif.Props.TwoSteps

/-!
# C116: reading a `.pnts` file into a layout, and converting what was read in its own layout
-/

namespace Pasture.Props

open Spec Spec.Pnts Tiles3d Las PntsReader BorrowedBuffer

/-- A value of a moved point. -/
theorem moved_get (c : P3 F64) (p : Point) (d : AttrDef) : (movedPoint c p).get d =
    (p.get d).map fun v => if d.name = "Position3D" then movedPosition c d.datatype v else v := by
  unfold movedPoint Point.get
  induction p with
  | nil => rfl
  | cons a p ih =>
    obtain ⟨k, v⟩ := a
    rw [List.map_cons, List.lookup_cons, List.lookup_cons, ih]
    by_cases h : d = k
    · subst h
      simp
    · rw [beq_eq_false_iff_ne.2 h]

/-- The points of a reader have all attributes of its layout. -/
theorem has_value {l : PointLayout} {p : Point} (h : p.map Prod.fst = l.attributes.map Member.definition) {m : Member}
    (hm : m ∈ l.attributes) : ∃ v, p.get m.definition = some v := by
  have : m.definition ∈ p.map Prod.fst := h ▸ List.mem_map_of_mem hm
  obtain ⟨kv, hk, he⟩ := List.mem_map.1 this
  cases hv : p.get m.definition with
  | some v => exact ⟨v, rfl⟩
  | none =>
    unfold Point.get at hv
    rw [List.lookup_eq_none_iff] at hv
    have := hv kv hk
    rw [he] at this
    simp at this

/-- Moving and converting can be exchanged. -/
theorem moved_converted {l target : PointLayout} (hl : Solid l) (c : P3 F64)
    (hp : ∀ t ∈ target.attributes, t.name = "Position3D" → ∃ m ∈ l.attributes, m.definition = t.definition) {p : Point}
    (h : p.map Prod.fst = l.attributes.map Member.definition) :
    movedPoint c ((defaultPlan l).apply p (zeroPoint target)) = (defaultPlan l).apply (movedPoint c p) (zeroPoint target) := by
  conv_lhs => unfold movedPoint
  unfold Plan.apply zeroPoint
  rw [List.map_map, List.map_map, List.map_map]
  apply List.map_congr_left
  intro t ht
  dsimp only [Function.comp]
  congr 1
  by_cases hn : t.definition.name = "Position3D"
  · obtain ⟨m, hm, he⟩ := hp t ht hn
    have hplan : defaultPlan l t.definition = some ⟨m.definition, id⟩ := by
      rw [← he, defaultPlan_of_name hl hm rfl, conversion_to_same]
      rfl
    obtain ⟨v, hv⟩ := has_value h hm
    have hn' : m.definition.name = "Position3D" := by rw [he]; exact hn
    rw [if_pos hn, hplan]
    dsimp only
    rw [moved_get, hv, Option.map_some, if_pos hn']
    dsimp only [id]
    rw [he]
  · rw [if_neg hn]
    by_cases hx : named l t.name
    · obtain ⟨m, hm, hname⟩ := hx
      rw [defaultPlan_of_name hl hm hname.symm]
      cases conversion m.datatype t.datatype with
      | none => rfl
      | some g =>
        dsimp only [Option.map_some]
        have hn' : ¬ m.definition.name = "Position3D" := by
          intro e
          exact hn (by rw [← e]; exact hname.symm)
        rw [moved_get]
        simp only [if_neg hn', Option.map_id']
    · rw [defaultPlan_unnamed hx]

section
variable {r : PntsReader} {ps : List Point} {center : Option (P3 F64)} {i : Nat} {target : PointLayout}

/-- The same for all cases of the claim. -/
theorem placed_converted (h : Opened r ps center i) (ha : PositionsAlike r center target) {p : Point} (hp : p ∈ ps) :
    placed r.mode center ((defaultPlan r.layout).apply p (zeroPoint target)) =
      (defaultPlan r.layout).apply (placed r.mode center p) (zeroPoint target) := by
  have same : r.mode = .relativeToCenter ∨ center = none → ∀ q, placed r.mode center q = q := by
    rintro (e | e) q
    · rw [e]; rfl
    · rw [e]; cases r.mode <;> rfl
  rcases ha with e | e | e
  · rw [same (.inl e), same (.inl e)]
  · rw [same (.inr e), same (.inr e)]
  · cases hm : r.mode with
    | relativeToCenter => rfl
    | absolute =>
      cases center with
      | none => rfl
      | some c => exact moved_converted h.solid c e (h.attributes p hp)

theorem zip_zero (g : Point → Point → Point) (z : Point) : ∀ (qs : List Point) (n : Nat), qs.length = n →
    List.zipWith g qs (List.replicate n z) = qs.map fun q => g q z
  | [], n, h => by subst h; rfl
  | q :: qs, n, h => by
    subst h
    show g q z :: List.zipWith g qs (List.replicate qs.length z) = _
    rw [zip_zero g z qs _ rfl]
    rfl

/-- The points that are read directly. -/
theorem direct_points (h : Opened r ps center i) (ha : PositionsAlike r center target) {count : Nat}
    (hcount : i + count ≤ ps.length) :
    readOverPnts r.layout (placed r.mode center) ((ps.drop i).take count) (List.replicate count (zeroPoint target)) =
      (((ps.drop i).take count).map (placed r.mode center)).map
        fun p => (defaultPlan r.layout).apply p (zeroPoint target) := by
  have hlen : ((ps.drop i).take count).length = count := by rw [List.length_take, List.length_drop]; omega
  unfold readOverPnts
  rw [hlen, List.drop_of_length_le (l := List.replicate count _) (by simp), List.append_nil, zip_zero _ _ _ _ hlen, List.map_map]
  apply List.map_congr_left
  intro p hp
  exact placed_converted h ha (List.mem_of_mem_drop (List.mem_of_mem_take hp))

/-- **C116 in part**: wherever a reader stands in a file, if the layout of the file can be converted to `target`, converting
    points that were read gives what is read directly, for all kinds of buffers. Missing: absolute positions in another
    type than that of the file (`C116_violated`), and positions of files that have none (`C116_none_violated`). -/
theorem C116_partial (h : Opened r ps center i) (hmv : Movable r.layout) (ht : Solid target)
    (hc : ∃ conv, BufferLayoutConverter.forLayoutsWithDefault r.layout target = .ok conv)
    (ha : PositionsAlike r center target) {count : Nat} (hpos : 0 < count) (hcount : i + count ≤ ps.length) :
    (SameTileByDetour r target count VectorBuffer VectorBuffer VectorBuffer ∧
      SameTileByDetour r target count VectorBuffer HashMapBuffer VectorBuffer ∧
      SameTileByDetour r target count HashMapBuffer VectorBuffer VectorBuffer ∧
      SameTileByDetour r target count HashMapBuffer HashMapBuffer VectorBuffer) ∧
    (SameTileByDetour r target count VectorBuffer VectorBuffer HashMapBuffer ∧
      SameTileByDetour r target count VectorBuffer HashMapBuffer HashMapBuffer ∧
      SameTileByDetour r target count HashMapBuffer VectorBuffer HashMapBuffer ∧
      SameTileByDetour r target count HashMapBuffer HashMapBuffer HashMapBuffer) := by
  have hp := (C28_with_default r.layout target ht).1.1 hc
  have hcv : Convertible r.layout target := by
    intro m hm t htm hn
    have := hp t htm ⟨m, hm, hn.symm⟩
    rw [defaultPlan_of_name h.solid hm hn, Option.isSome_map] at this
    exact this
  have hmt : r.mode = .absolute → center ≠ none → Movable target := by
    intro e1 e2
    rcases ha with e | e | e
    · rw [e1] at e; cases e
    · exact absurd e e2
    · intro t htm hn
      obtain ⟨m, hm, he⟩ := e t htm hn
      have := hmv m hm (by show m.definition.name = _; rw [he]; exact hn)
      rw [show t.datatype = m.datatype from (congrArg AttrDef.datatype he).symm]
      exact this
  have hmin : min count (ps.length - i) = count := by omega
  have hlen : ((ps.drop i).take count).length = count := by rw [List.length_take, List.length_drop]; omega
  obtain ⟨f1, f2⟩ := ReadOwner.fresh (β := VectorBuffer) ht count
  obtain ⟨g1, g2⟩ := ReadOwner.fresh (β := HashMapBuffer) ht count
  obtain ⟨d, r₂, d1, _, _, d4⟩ := C56_interleaved_partial h ht hcv hmt f1 f2 (count := count) (by omega) (by simp)
    (.inl (by simp; omega))
  obtain ⟨d', r₂', d1', _, _, d4'⟩ := C56_columnar_partial h ht hcv hmt g1 g2 (count := count) (by omega) (by simp)
    (.inl (by simp; omega))
  rw [hmin] at d1 d1'
  rw [direct_points h ha hcount] at d4 d4'
  obtain ⟨m, r₁, m1, _, _, m4, m5⟩ := read_opened (β := VectorBuffer) h hmv hpos (by omega)
  obtain ⟨k, r₁', k1, _, _, k4, k5⟩ := read_opened (β := HashMapBuffer) h hmv hpos (by omega)
  obtain ⟨⟨c1, e1, s1⟩, c2, e2, s2⟩ := at_once m r.layout target h.solid ht _ (vector_middle h.solid m4 m5) hp
  obtain ⟨⟨c3, e3, s3⟩, c4, e4, s4⟩ := at_once k r.layout target h.solid ht _ (hashmap_middle h.solid k4 k5) hp
  have hl : ((((ps.drop i).take count).map (placed r.mode center)).map
      fun p => (defaultPlan r.layout).apply p (zeroPoint target)).length = count := by
    rw [List.length_map, List.length_map]
    exact hlen
  exact ⟨⟨⟨m, r₁, c1, d, r₂, _, m1, e1, d1, hl, s1.points, d4⟩, ⟨m, r₁, c2, d, r₂, _, m1, e2, d1, hl, s2.points, d4⟩,
    ⟨k, r₁', c3, d, r₂, _, k1, e3, d1, hl, s3.points, d4⟩, ⟨k, r₁', c4, d, r₂, _, k1, e4, d1, hl, s4.points, d4⟩⟩,
    ⟨m, r₁, c1, d', r₂', _, m1, e1, d1', hl, s1.points, d4'⟩, ⟨m, r₁, c2, d', r₂', _, m1, e2, d1', hl, s2.points, d4'⟩,
    ⟨k, r₁', c3, d', r₂', _, k1, e3, d1', hl, s3.points, d4'⟩, ⟨k, r₁', c4, d', r₂', _, k1, e4, d1', hl, s4.points, d4'⟩⟩

end

/-! ## The full claim is false -/

/-- Read in the layout of the file and convert. -/
def tileByDetour (r : PntsReader) (target : PointLayout) : Out Bytes := do
  let (b, _) ← readPoints VectorBuffer r 1
  let c ← atOnce VectorBuffer (PointReader.defaultLayout r) target b
  pure c.storage

/-- Read in the target layout. -/
def tileDirectly (r : PntsReader) (target : PointLayout) : Out Bytes := do
  let (_, b, _) ← PointReader.readInto r (OwningBuffer.resize (MakeBufferFromLayout.newFromLayout target : VectorBuffer) 1) 1
  pure b.storage

/-- A file with one point at its center, whose first coordinate is 1 + 2^-52. -/
def fineTile : PntsReader :=
  ⟨zeros 12, ⟨1, some ⟨⟨false, 0x3FF0000000000001⟩, ⟨false, 0⟩, ⟨false, 0⟩⟩, none, none, none, none⟩, tileLayout, 0,
    [("Position3D", 0)], .absolute⟩

theorem fineTile_opened : Opened fineTile [zeroPoint tileLayout] fineTile.metadata.rtcCenter 0 where
  index := rfl
  inside := by simp
  count := rfl
  center := rfl
  solid := tile_solid
  attributes := by intro p hp; obtain rfl := List.mem_singleton.1 hp; rfl
  sizes := by intro p hp; obtain rfl := List.mem_singleton.1 hp; decide
  stored := by
    intro m hm
    obtain rfl := List.mem_singleton.1 hm
    exact ⟨0, rfl, by decide⟩

/-- Positions with double precision. -/
def doublePositions : PointLayout := ⟨[⟨⟨"Position3D", .vec3f64⟩, 0⟩], 24, 8⟩

/-- **C116 violated**: positions in double precision are those of the center if they are read directly. If points are read in
    the layout of the file and converted, they have been rounded to single precision. -/
theorem C116_violated : tileDirectly fineTile doublePositions = .ok ([1, 0, 0, 0, 0, 0, 0xF0, 0x3F] ++ zeros 16) ∧
    tileByDetour fineTile doublePositions = .ok ([0, 0, 0, 0, 0, 0, 0xF0, 0x3F] ++ zeros 16) := by
  constructor <;> decide +kernel

/-- A file with one point that has a color and no position, and the same center. -/
def colorTile : PntsReader :=
  ⟨[1, 2, 3], ⟨1, some ⟨⟨false, 0x3FF0000000000000⟩, ⟨false, 0⟩, ⟨false, 0⟩⟩, none, none, none, none⟩,
    ⟨[⟨⟨"ColorRGB", .vec3u8⟩, 0⟩], 3, 1⟩, 0, [("ColorRGB", 0)], .absolute⟩

/-- A file without positions: a position that is read directly is that of the center, otherwise it is 0. -/
theorem C116_none_violated : tileDirectly colorTile tileLayout = .ok ([0, 0, 0x80, 0x3F] ++ zeros 8) ∧
    tileByDetour colorTile tileLayout = .ok (zeros 12) := by
  constructor <;> decide +kernel

/-! ## The theorem applies -/

/-- The position of the file, and an attribute that it does not have. -/
def taggedPositions : PointLayout := ⟨[⟨⟨"Tag", .u16⟩, 0⟩, ⟨⟨"Position3D", .vec3f32⟩, 4⟩], 16, 4⟩

example : Movable fineTile.layout ∧ Solid taggedPositions ∧
    (∃ conv, BufferLayoutConverter.forLayoutsWithDefault fineTile.layout taggedPositions = .ok conv) ∧
    PositionsAlike fineTile fineTile.metadata.rtcCenter taggedPositions ∧
    tileDirectly fineTile taggedPositions = .ok (zeros 4 ++ [0, 0, 0x80, 0x3F] ++ zeros 8) := by
  have ht : Solid taggedPositions := by decide +kernel
  refine ⟨?_, ht, ?_, ?_, by decide +kernel⟩
  · intro m hm _
    obtain rfl := List.mem_singleton.1 hm
    exact .inl rfl
  · refine (C28_with_default _ taggedPositions ht).1.2 ?_
    intro t htm hn
    rcases List.mem_cons.1 htm with rfl | htm
    · exact absurd hn (by decide +kernel)
    · obtain rfl := List.mem_singleton.1 htm
      decide +kernel
  · refine .inr (.inr ?_)
    intro t htm hn
    rcases List.mem_cons.1 htm with rfl | htm
    · exact absurd hn (by decide)
    · obtain rfl := List.mem_singleton.1 htm
      exact ⟨_, List.mem_singleton.2 rfl, rfl⟩

end Pasture.Props
