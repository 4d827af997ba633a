import Mathlib.Data.List.Perm.Subperm
import Mathlib.Tactic.Linarith
import Verif.Lemmas.VoxelCentroid
import Verif.Lemmas.VoxelSteps
import Verif.Lemmas.RecordBuffer
import Verif.Lemmas.FloatExact
import Verif.Lemmas.FloatError
import Verif.Props.Bounds

/-!
# Voxel grid: C57 and C58
-/

namespace Pasture.Props

open Spec Flt Voxel BorrowedBuffer OwningBuffer

/-! ## C57 -/

theorem partition_length {g : Grid} {positions : List (P3 F64)} {voxels : List (P3 Nat × List Nat)}
    (h : IsPartition g positions voxels) : voxels.length ≤ positions.length := by
  have hin : ∀ v ∈ voxels, ∀ i ∈ v.2, i < positions.length := by
    intro v hv i hi
    obtain ⟨p, hp, _⟩ := h.nearest v hv i hi
    exact (List.getElem?_eq_some_iff.1 hp).1
  -- one point of each voxel
  have hsub : (voxels.map fun v => v.2.headD 0) ⊆ List.range positions.length := by
    intro i hi
    obtain ⟨v, hv, rfl⟩ := List.mem_map.1 hi
    have hne := h.nonempty v hv
    have hin := hin v hv
    cases hp : v.2 with
    | nil => exact absurd hp hne
    | cons a as =>
      rw [hp] at hin
      exact List.mem_range.2 (hin a List.mem_cons_self)
  have hnd : (voxels.map fun v => v.2.headD 0).Nodup := by
    rw [List.Nodup, List.pairwise_map]
    refine h.sorted.imp_of_mem ?_
    intro a b ha hb hlt heq
    obtain ⟨x, xs, hx⟩ := List.exists_cons_of_ne_nil (h.nonempty a ha)
    obtain ⟨y, ys, hy⟩ := List.exists_cons_of_ne_nil (h.nonempty b hb)
    rw [hx, hy] at heq
    have heq : x = y := heq
    subst heq
    have hxa : x ∈ a.2 := by rw [hx]; exact List.mem_cons_self
    have hxb : x ∈ b.2 := by rw [hy]; exact List.mem_cons_self
    obtain ⟨w, _, hu⟩ := h.exactlyOne x (hin a ha x hxa)
    rw [hu a ⟨ha, hxa⟩, hu b ⟨hb, hxb⟩] at hlt
    exact lex_irrefl _ hlt
  have := (List.subperm_of_subset hnd hsub).length_le
  simpa using this

theorem finite_le_max {x : F64} (hx : x.isFinite = true) :
    Flt.le x AABB.f64Max = true ∧ Flt.le AABB.f64Min x = true := by
  have hm : x.mag < FloatFormat.f64.infMag := of_decide_eq_true hx
  have hn := (finite_cases hx).1
  have h0 := infMag_pos usable_f64
  constructor
  · refine (le_rank hn notNaN_max).2 ?_
    unfold rank AABB.f64Max
    dsimp only
    rw [if_neg Bool.false_ne_true]
    split_ifs <;> omega
  · refine (le_rank notNaN_min hn).2 ?_
    unfold rank AABB.f64Min
    dsimp only
    rw [if_pos rfl]
    split_ifs <;> omega

theorem finite_of_le {x : F64} (h1 : Flt.le x AABB.f64Max = true) (h2 : Flt.le AABB.f64Min x = true) :
    x.isFinite = true := by
  have hn : x.isNaN = false := by
    cases h : x.isNaN with
    | false => rfl
    | true => unfold Flt.le at h1; rw [h] at h1; cases h1
  have h0 := infMag_pos usable_f64
  have g1 := (le_rank hn notNaN_max).1 h1
  have g2 := (le_rank notNaN_min hn).1 h2
  unfold rank AABB.f64Max at g1
  unfold rank AABB.f64Min at g2
  apply decide_eq_true
  dsimp only at g1 g2
  rw [if_neg Bool.false_ne_true] at g1
  rw [if_pos rfl] at g2
  split_ifs at g1 g2 <;> omega

/-- Finite coordinates. -/
def FinitePosition (p : P3 F64) : Prop := Finite p.x ∧ Finite p.y ∧ Finite p.z

theorem tightest_finite {box : AABB F64} {positions : List (P3 F64)} (hne : positions ≠ [])
    (hf : ∀ p ∈ positions, FinitePosition p) (ht : Tightest NotNaN box positions) :
    FinitePosition box.min ∧ FinitePosition box.max := by
  have o := ordered_flt FloatFormat.f64
  obtain ⟨p, hp⟩ := List.exists_mem_of_ne_nil _ hne
  obtain ⟨⟨a1, a2, a3⟩, b1, b2, b3⟩ := ht.1 p hp
  have left : ∀ {x y : F64}, Cmp.le x y = true → NotNaN x := by
    intro x y h
    have h : Flt.le x y = true := h
    unfold NotNaN
    cases hx : x.isNaN with
    | false => rfl
    | true => unfold Flt.le at h; rw [hx] at h; cases h
  have right : ∀ {x y : F64}, Cmp.le x y = true → NotNaN y := by
    intro x y h
    have h : Flt.le x y = true := h
    unfold NotNaN
    cases hy : y.isNaN with
    | false => rfl
    | true => unfold Flt.le at h; rw [hy] at h; simp at h
  have t1 := o.trans _ _ _ (left a1) (right a1) (right b1) a1 b1
  have t2 := o.trans _ _ _ (left a2) (right a2) (right b2) a2 b2
  have t3 := o.trans _ _ _ (left a3) (right a3) (right b3) a3 b3
  have hw := ht.2 ⟨⟨AABB.f64Min, AABB.f64Min, AABB.f64Min⟩, ⟨AABB.f64Max, AABB.f64Max, AABB.f64Max⟩⟩
    ⟨⟨notNaN_min, notNaN_min, notNaN_min⟩, notNaN_max, notNaN_max, notNaN_max⟩ (by
      intro q hq
      obtain ⟨f1, f2, f3⟩ := hf q hq
      exact ⟨⟨(finite_le_max f1).2, (finite_le_max f2).2, (finite_le_max f3).2⟩,
        (finite_le_max f1).1, (finite_le_max f2).1, (finite_le_max f3).1⟩)
  obtain ⟨⟨m1, m2, m3⟩, m4, m5, m6⟩ := hw box.min ⟨left a1, left a2, left a3⟩
    ⟨⟨o.refl _ (left a1), o.refl _ (left a2), o.refl _ (left a3)⟩, t1, t2, t3⟩
  obtain ⟨⟨n1, n2, n3⟩, n4, n5, n6⟩ := hw box.max ⟨right b1, right b2, right b3⟩
    ⟨⟨t1, t2, t3⟩, o.refl _ (right b1), o.refl _ (right b2), o.refl _ (right b3)⟩
  exact ⟨⟨finite_of_le m4 m1, finite_of_le m5 m2, finite_of_le m6 m3⟩,
    finite_of_le n4 n1, finite_of_le n5 n2, finite_of_le n6 n3⟩

theorem voxel_bounds {β : Type} [BorrowedBuffer β] {b : β} {l : PointLayout} (hl : Solid l) {ps : List Point}
    (h : ShowsPoints b l ps) (hne : ps ≠ []) (hpos : position3D ∈ l.attributes.map Member.definition)
    (hf : ∀ p ∈ positionsOf ps, FinitePosition p) :
    ∃ box, calculateBounds b = .ok (some box) ∧ Tightest NotNaN box (positionsOf ps) ∧ positionsOf ps ≠ [] := by
  obtain ⟨m, hm, hd⟩ := List.mem_map.1 hpos
  obtain ⟨xs, hx, _⟩ := column_some hl h hm
  have hlen := (column_get hx).1
  have hposne : positionsOf ps ≠ [] := by
    unfold positionsOf
    rw [← hd, ← column_all hx]
    intro hc
    have := congrArg List.length hc
    rw [List.length_map, hlen] at this
    exact hne (List.length_eq_zero_iff.1 this)
  obtain ⟨q, hq⟩ := List.exists_mem_of_ne_nil _ hposne
  obtain ⟨box, h1, h2⟩ := C34_bounds_partial b l hl ps h hne m hm (by
      show m.definition.name = _; rw [hd]; rfl) id (by
      show conversion m.definition.datatype _ = _; rw [hd]; rfl) (positionsOf ps) (by
      unfold positionsOf; rw [hd]; rfl)
    (fun p hp => by
      obtain ⟨f1, f2, f3⟩ := hf p hp
      exact ⟨(finite_cases f1).1, (finite_cases f2).1, (finite_cases f3).1⟩)
    (by
      obtain ⟨f1, f2, f3⟩ := hf q hq
      intro axis ha
      simp only [List.mem_cons, List.not_mem_nil, or_false] at ha
      rcases ha with rfl | rfl | rfl
      · exact ⟨⟨q, hq, (finite_le_max f1).1⟩, q, hq, (finite_le_max f1).2⟩
      · exact ⟨⟨q, hq, (finite_le_max f2).1⟩, q, hq, (finite_le_max f2).2⟩
      · exact ⟨⟨q, hq, (finite_le_max f3).1⟩, q, hq, (finite_le_max f3).2⟩)
  exact ⟨box, h1, h2, hposne⟩

theorem filter_run {β γ : Type} [BorrowedBuffer β] [OwningBuffer γ] [HoldsRecords γ] {b : β} {l l2 : PointLayout}
    (hl : Solid l) (hl2 : Solid l2) {ps : List Point} (h : ShowsPoints b l ps) (hc : Covered l l2)
    {order : List (Int × Nat) → List (Int × Nat)} (ho : ∀ c, (order c).Perm c)
    (hpos : position3D ∈ l.attributes.map Member.definition) {g : Grid}
    (hg : ∀ p ∈ positionsOf ps, ∃ v, findLeaf p g.x g.y g.z = .ok v ∧ g.Nearest p v) {rs : List Bytes}
    (hrs : AllLen l2.size rs) :
    ∃ voxels cs, filterWith order b g.x g.y g.z (HoldsRecords.ofRecords l2 rs : γ) =
        .ok (HoldsRecords.ofRecords l2 (rs ++ cs)) ∧ AllLen l2.size cs ∧
      IsPartition g (positionsOf ps) voxels ∧
      List.Forall₂ (fun v c => IsCentroid l2 ps v.2 (pointOf l2 c)) voxels cs := by
  obtain ⟨m, hm, hd⟩ := List.mem_map.1 hpos
  obtain ⟨xs, hx, _⟩ := column_some hl h hm
  have hv := view_values hl h hm hx
  have hty : m.datatype = .vec3f64 := by show m.definition.datatype = _; rw [hd]; rfl
  rw [hty] at hv
  have hps : xs.map readVec3F64 = positionsOf ps := by
    unfold positionsOf
    rw [column_all hx, hd]
    rfl
  obtain ⟨vs, c1, c2⟩ := collect_voxels g.x g.y g.z (positionsOf ps) fun p hp => by
    obtain ⟨v, hv, _⟩ := hg p hp
    exact ⟨v, hv⟩
  have hpart := collected_partition c2 (g := g) fun p hp v hv => by
    obtain ⟨v', hv', hn⟩ := hg p hp
    rw [hv'] at hv
    cases hv
    exact hn
  have hplen : (positionsOf ps).length = ps.length := by rw [← hps, List.length_map, (column_get hx).1]
  obtain ⟨cs, k1, k2, k3⟩ := centroid_loop (γ := γ) hl h hl2 hc ho vs (fun v hv => ⟨c2.nonempty v hv, fun i hi => by
    rw [← hplen]; exact (c2.inside v hv i hi).1⟩) rs hrs
  refine ⟨vs.map fun v => (v.pos, v.points), cs, ?_, k1, hpart, ?_⟩
  · unfold filterWith
    rw [show AttributeView.new b .vec3f64 position3D = .ok ⟨.vec3f64, m⟩ from
      (C62_attribute_view_checks b l hl ps h _ _).1 rfl m hm hd]
    show (AttributeView.values b _).bind _ = _
    rw [hv]
    show (collectVoxels _ _ _ _).bind _ = _
    rw [hps, c1]
    exact k2
  · rw [List.forall₂_map_left_iff]
    exact k3

theorem find_leaf {box : AABB F64} {positions : List (P3 F64)} (hne : positions ≠ [])
    (hf : ∀ p ∈ positions, FinitePosition p) (ht : Tightest NotNaN box positions) {leaf : P3 F64}
    (hn : NotNaN leaf.x ∧ NotNaN leaf.y ∧ NotNaN leaf.z) {kx ky kz : Nat}
    (hx : Reaches box.min.x box.max.x leaf.x kx) (hy : Reaches box.min.y box.max.y leaf.y ky)
    (hz : Reaches box.min.z box.max.z leaf.z kz) (p : P3 F64) (hp : p ∈ positions) :
    ∃ v, findLeaf p (markersOf box.min.x leaf.x kx) (markersOf box.min.y leaf.y ky) (markersOf box.min.z leaf.z kz) = .ok v ∧
      Grid.Nearest ⟨markersOf box.min.x leaf.x kx, markersOf box.min.y leaf.y ky, markersOf box.min.z leaf.z kz⟩ p v := by
  obtain ⟨⟨l1, l2, l3⟩, u1, u2, u3⟩ := tightest_finite hne hf ht
  obtain ⟨f1, f2, f3⟩ := hf p hp
  obtain ⟨_, i1, i2, i3⟩ := ht.1 p hp
  have hr : ∀ {x y : F64}, Finite x → Finite y → Cmp.le x y = true → x.rank ≤ y.rank := fun hx hy h =>
    (le_rank (finite_cases hx).1 (finite_cases hy).1).1 h
  obtain ⟨jx, a1, a2⟩ := leaf_spec (good_axis l1 u1 hn.1 hx) f1 (hr f1 u1 i1)
  obtain ⟨jy, b1, b2⟩ := leaf_spec (good_axis l2 u2 hn.2.1 hy) f2 (hr f2 u2 i2)
  obtain ⟨jz, c1, c2⟩ := leaf_spec (good_axis l3 u3 hn.2.2 hz) f3 (hr f3 u3 i3)
  refine ⟨⟨jx, jy, jz⟩, ?_, a2, b2, c2⟩
  unfold findLeaf
  rw [a1, b1, c1]
  rfl

/-- C57: `voxelgrid_filter` puts every point into exactly one voxel, whose markers are nearest to it, and appends to
    the target one centroid for every non-empty voxel, in the order of the voxels.

    Partial: the buffer is not empty, its coordinates are finite, the leaf sizes reach from one end of the bounding
    box to the other after finitely many steps (`C57_terminates`, `C57_diverges`), and distances to markers are the
    computed ones (`C57_nearest_exact`, `C57_nearest_violated`). -/
theorem C57_partial {β γ : Type} [BorrowedBuffer β] [OwningBuffer γ] [RecordBuffer γ] (b : β) (l : PointLayout)
    (hl : Solid l) (ps : List Point) (h : ShowsPoints b l ps) (hne : ps ≠ [])
    (hpos : position3D ∈ l.attributes.map Member.definition) (hf : ∀ p ∈ positionsOf ps, FinitePosition p)
    (target : γ) (htc : RecordBuffer.Consistent target) (hl2 : Solid (layout target)) (hc : Covered l (layout target))
    (order : List (Int × Nat) → List (Int × Nat)) (ho : ∀ c, (order c).Perm c)
    (leaf : P3 F64) (hn : NotNaN leaf.x ∧ NotNaN leaf.y ∧ NotNaN leaf.z) :
    ∃ box, Tightest NotNaN box (positionsOf ps) ∧ ∀ kx ky kz : Nat,
      Reaches box.min.x box.max.x leaf.x kx → Reaches box.min.y box.max.y leaf.y ky →
      Reaches box.min.z box.max.z leaf.z kz → ∀ fuel, kx < fuel → ky < fuel → kz < fuel →
      ∃ voxels old cs target', voxelgridFilter fuel order b leaf target = some (.ok target') ∧
        IsPartition ⟨markersOf box.min.x leaf.x kx, markersOf box.min.y leaf.y ky, markersOf box.min.z leaf.z kz⟩
          (positionsOf ps) voxels ∧
        voxels.length ≤ ps.length ∧ RecordBuffer.Consistent target' ∧
        ShowsPoints target (layout target) old ∧ ShowsPoints target' (layout target) (old ++ cs) ∧
        List.Forall₂ (fun v c => IsCentroid (layout target) ps v.2 c) voxels cs := by
  obtain ⟨box, h1, h2, hpne⟩ := voxel_bounds hl h hne hpos hf
  refine ⟨box, h2, ?_⟩
  intro kx ky kz rx ry rz fuel fx fy fz
  obtain ⟨rs, hrs, et⟩ := RecordBuffer.records htc hl2
  obtain ⟨voxels, cs, g1, g2, g3, g4⟩ := filter_run (γ := γ) hl hl2 h hc ho hpos
    (g := ⟨markersOf box.min.x leaf.x kx, markersOf box.min.y leaf.y ky, markersOf box.min.z leaf.z kz⟩)
    (find_leaf hpne hf h2 hn rx ry rz) hrs
  have hlen : (positionsOf ps).length ≤ ps.length := by
    unfold positionsOf
    rw [List.length_map]
    exact List.length_filterMap_le _ _
  refine ⟨voxels, rs.map (pointOf (layout target)), cs.map (pointOf (layout target)),
    HoldsRecords.ofRecords (layout target) (rs ++ cs), ?_, g3, (partition_length g3).trans hlen,
    RecordBuffer.consistent hl2 (hrs.append g2), ?_, ?_, ?_⟩
  · unfold voxelgridFilter
    rw [h.layout_eq, if_neg (not_not_intro ((Las.hasAttribute_iff l _).2 hpos)), h1]
    dsimp only
    unfold createMarkers
    rw [markers_reach rx fx, markers_reach ry fy, markers_reach rz fz]
    show some (filterWith order b _ _ _ target) = _
    rw [← g1, ← et]
  · have := HoldsRecords.shows (β := γ) hl2 hrs
    rw [← et] at this
    exact this
  · rw [← List.map_append]
    exact HoldsRecords.shows (β := γ) hl2 (hrs.append g2)
  · rw [List.forall₂_map_right_iff]
    exact g4

/-! ### When the filter returns -/

/-- C57: the markers of an axis are finitely many if the leaf size is positive and not negligible compared with the
    coordinates. -/
theorem C57_terminates (lo hi leaf : F64) (hlo : Finite lo) (hhi : Finite hi) (hleaf : Finite leaf)
    (hpos : 0 < value leaf) (h1 : |value lo| ≤ 2 ^ 52 * value leaf) (h2 : |value hi| ≤ 2 ^ 52 * value leaf) :
    ∃ k, Reaches lo hi leaf k := by
  have hF := usable_f64
  have hone : (0 : ℚ) < FloatFormat.f64.one := by exact_mod_cast FloatFormat.one_pos (F := .f64)
  have hs : 0 < leaf.sunits := by
    rw [value_eq hF, div_pos_iff_of_pos_right hone] at hpos
    exact_mod_cast hpos
  have key : ∀ {x : F64}, |value x| ≤ 2 ^ 52 * value leaf →
      (FloatFormat.f64.units x.mag : Int) ≤ 2 ^ FloatFormat.f64.mantBits * leaf.sunits := by
    intro x hx
    rw [value_abs hF, value_eq hF, ← mul_div_assoc, div_le_div_iff_of_pos_right hone] at hx
    exact_mod_cast hx
  refine reaches_of_progress hlo hhi (finite_cases hleaf).1 ?_
  intro x hx hle hlt
  refine add_progress hF hx hhi hlt hleaf hs ?_
  have hmag : x.mag ≤ lo.mag ∨ x.mag ≤ hi.mag := by
    unfold rank at hle hlt
    split_ifs at hle hlt <;> omega
  have hmono := (FloatFormat.units_strictMono FloatFormat.f64).monotone
  rcases hmag with h | h
  · exact le_trans (by exact_mod_cast hmono h) (key h1)
  · exact le_trans (by exact_mod_cast hmono h) (key h2)

theorem markers_none {fuel : Nat} {box : AABB F64} {leaf : P3 F64} {axis : P3 F64 → F64}
    (ha : axis = P3.x ∨ axis = P3.y ∨ axis = P3.z)
    (h : ∀ k, Flt.lt (marker (axis box.min) (axis leaf) k) (axis box.max) = true) :
    createMarkers fuel box leaf = none := by
  have hn := markers_diverge h fuel 0
  unfold createMarkers
  rcases ha with rfl | rfl | rfl
  · rw [show markersOnAxis fuel box.min.x box.max.x leaf.x = none from hn]
    rfl
  · rw [show markersOnAxis fuel box.min.y box.max.y leaf.y = none from hn]
    cases markersOnAxis fuel box.min.x box.max.x leaf.x <;> rfl
  · rw [show markersOnAxis fuel box.min.z box.max.z leaf.z = none from hn]
    cases markersOnAxis fuel box.min.x box.max.x leaf.x
    · rfl
    · cases markersOnAxis fuel box.min.y box.max.y leaf.y <;> rfl

theorem add_neg_inf {x leaf : F64} (hx : x.isInf = true) (hl : leaf.isFinite = true) : x.add leaf = x := by
  have hn : x.isNaN = false := by
    have : x.mag = FloatFormat.f64.infMag := of_decide_eq_true hx
    exact decide_eq_false (by omega)
  rw [← add_comm' usable_f64 hl hn, add_inf hl hx]

theorem stuck {lo hi leaf : F64} (hlo : Finite lo) (hhi : Finite hi) (hleaf : Finite leaf) (hlt : Flt.lt lo hi = true)
    (hs : value leaf ≤ 0 ∨ lo.add leaf = lo) : ∀ k, Flt.lt (marker lo leaf k) hi = true := by
  have hF := usable_f64
  have hhn := (finite_cases hhi).1
  rcases hs with hs | hs
  · have hr : leaf.rank ≤ 0 := by
      have := (rank_le hF leaf (zero .f64)).2 (by
        have : value (zero .f64) = 0 := by rw [value_eq hF]; unfold sunits zero; simp [FloatFormat.units_zero]
        rw [this]; exact hs)
      simpa [zero, rank] using this
    have key : ∀ k, (marker lo leaf k).isNaN = false ∧ (marker lo leaf k).rank ≤ lo.rank := by
      intro k
      induction k with
      | zero => exact ⟨(finite_cases hlo).1, Int.le_refl _⟩
      | succ k ih =>
        show ((marker lo leaf k).add leaf).isNaN = false ∧ ((marker lo leaf k).add leaf).rank ≤ _
        rcases finite_or_inf ih.1 with h | h
        · exact ⟨add_notNaN h (finite_cases hleaf).1, (add_rank_le hF h (finite_cases hleaf).1 hr).trans ih.2⟩
        · rw [add_neg_inf h hleaf]
          exact ih
    intro k
    have := (lt_rank (finite_cases hlo).1 hhn).1 hlt
    exact (lt_rank (key k).1 hhn).2 (by have := (key k).2; omega)
  · have key : ∀ k, marker lo leaf k = lo := by
      intro k
      induction k with
      | zero => rfl
      | succ k ih => show (marker lo leaf k).add leaf = lo; rw [ih, hs]
    intro k
    rw [key k]
    exact hlt

/-- C57: the filter does not return if on some axis two coordinates differ and the leaf size is not positive. -/
theorem C57_diverges {β γ : Type} [BorrowedBuffer β] [OwningBuffer γ] (b : β) (l : PointLayout)
    (hl : Solid l) (ps : List Point) (h : ShowsPoints b l ps)
    (hpos : position3D ∈ l.attributes.map Member.definition) (hf : ∀ p ∈ positionsOf ps, FinitePosition p)
    (order : List (Int × Nat) → List (Int × Nat)) (leaf : P3 F64) (axis : P3 F64 → F64)
    (ha : axis = P3.x ∨ axis = P3.y ∨ axis = P3.z) (p q : P3 F64) (hp : p ∈ positionsOf ps) (hq : q ∈ positionsOf ps)
    (hlt : Flt.lt (axis p) (axis q) = true) (hleaf : Finite (axis leaf)) (hle : value (axis leaf) ≤ 0) (target : γ) (fuel : Nat) :
    voxelgridFilter fuel order b leaf target = none := by
  have hne : ps ≠ [] := by
    rintro rfl
    cases hp
  obtain ⟨box, h1, h2, hpne⟩ := voxel_bounds hl h hne hpos hf
  have hfin := tightest_finite hpne hf h2
  have hax : ∀ {p : P3 F64}, FinitePosition p → Finite (axis p) := by
    intro p hp
    rcases ha with rfl | rfl | rfl
    · exact hp.1
    · exact hp.2.1
    · exact hp.2.2
  have hin : ∀ {p : P3 F64}, p ∈ positionsOf ps →
      (axis box.min).rank ≤ (axis p).rank ∧ (axis p).rank ≤ (axis box.max).rank := by
    intro p hp
    have hb := h2.1 p hp
    have f1 := (finite_cases (hax hfin.1)).1
    have f2 := (finite_cases (hax (hf p hp))).1
    have f3 := (finite_cases (hax hfin.2)).1
    refine ⟨(le_rank f1 f2).1 ?_, (le_rank f2 f3).1 ?_⟩
    all_goals
      rcases ha with rfl | rfl | rfl
      · first | exact hb.1.1 | exact hb.2.1
      · first | exact hb.1.2.1 | exact hb.2.2.1
      · first | exact hb.1.2.2 | exact hb.2.2.2
  have hlt' : Flt.lt (axis box.min) (axis box.max) = true := by
    refine (lt_rank (finite_cases (hax hfin.1)).1 (finite_cases (hax hfin.2)).1).2 ?_
    have := (lt_rank (finite_cases (hax (hf p hp))).1 (finite_cases (hax (hf q hq))).1).1 hlt
    have := (hin hp).1
    have := (hin hq).2
    omega
  unfold voxelgridFilter
  rw [h.layout_eq, if_neg (not_not_intro ((Las.hasAttribute_iff l _).2 hpos)), h1]
  dsimp only
  rw [markers_none ha (stuck (hax hfin.1) (hax hfin.2) hleaf hlt' (.inl hle))]

/-- C57: an empty buffer makes the filter panic. -/
theorem C57_empty_panics {β γ : Type} [BorrowedBuffer β] [OwningBuffer γ] (b : β) (l : PointLayout)
    (h : ShowsPoints b l []) (order : List (Int × Nat) → List (Int × Nat)) (leaf : P3 F64) (target : γ) (fuel : Nat) :
    voxelgridFilter fuel order b leaf target = some (.error .panic) := by
  unfold voxelgridFilter
  by_cases hp : (layout b).hasAttribute position3D = true
  · rw [if_neg (not_not_intro hp), C34_bounds_none b l [] h (.inl rfl)]
    rfl
  · rw [if_pos hp]
    rfl

/-! ### Nearest markers -/

theorem distance_mono {x m m' : F64} (hx : Finite x) (hm : Finite m) (hm' : Finite m')
    (h : |value x - value m'| ≤ |value x - value m|) : (distance x m').rank ≤ (distance x m).rank := by
  have hF := usable_f64
  have hone : (0 : ℚ) < FloatFormat.f64.one := by exact_mod_cast FloatFormat.one_pos (F := .f64)
  have hu : ∀ {m : F64}, Finite m → ∃ z, distance x m = ofUnits .f64 |x.sunits - m.sunits| 1 z := by
    intro m hm
    unfold distance
    have hneg : ∀ {y : F64}, (negate y).sunits = -y.sunits := by
      intro y
      unfold negate sunits
      cases y.neg <;> simp
    cases hlt : Flt.lt m x with
    | true =>
      have h1 := (lt_iff hF m x hm hx).1 hlt
      rw [value_eq hF, value_eq hF, div_lt_div_iff_of_pos_right hone] at h1
      have h1 : m.sunits < x.sunits := by exact_mod_cast h1
      rw [if_pos rfl, abs_of_pos (by omega)]
      refine ⟨x.neg && (negate m).neg, (add_finite hx (y := negate m) hm).trans ?_⟩
      rw [hneg, ← sub_eq_add_neg]
    | false =>
      have h1 : ¬ value m < value x := fun hc => by rw [(lt_iff hF m x hm hx).2 hc] at hlt; cases hlt
      rw [value_eq hF, value_eq hF, div_lt_div_iff_of_pos_right hone] at h1
      have h1 : ¬ m.sunits < x.sunits := by exact_mod_cast h1
      rw [if_neg Bool.false_ne_true, abs_of_nonpos (by omega), neg_sub]
      refine ⟨m.neg && (negate x).neg, (add_finite hm (y := negate x) hx).trans ?_⟩
      rw [hneg, ← sub_eq_add_neg]
  obtain ⟨z, hz⟩ := hu hm
  obtain ⟨w, hw⟩ := hu hm'
  rw [hz, hw]
  apply ofUnits_rank_mono hF _ (by decide)
  have habs : ∀ y : F64, |value x - value y| = (|x.sunits - y.sunits| : Int) / FloatFormat.f64.one := by
    intro y
    rw [value_eq hF, value_eq hF, ← sub_div, abs_div, abs_of_pos hone]
    push_cast
    rfl
  rw [habs, habs, div_le_div_iff_of_pos_right hone] at h
  exact_mod_cast h

/-- C57: no marker is nearer than the one chosen, except for one whose distance is rounded to the same `f64`. -/
theorem C57_nearest_exact (ms : List F64) (x : F64) (j : Nat) (hx : Finite x) (hms : ∀ m ∈ ms, Finite m)
    (h : NearestMarker ms x j) (hne : ms ≠ []) :
    ∃ m, ms[j]? = some m ∧ ∀ m' ∈ ms, |value x - value m| ≤ |value x - value m'| ∨
      (Flt.le (distance x m) (distance x m') = true ∧ Flt.le (distance x m') (distance x m) = true) := by
  rcases h with ⟨h, _⟩ | ⟨m, hm, h⟩
  · exact absurd h hne
  · refine ⟨m, hm, fun m' hm' => ?_⟩
    have hmem := List.mem_of_getElem? hm
    by_cases hle : |value x - value m| ≤ |value x - value m'|
    · exact .inl hle
    · refine .inr ⟨h m' hm', ?_⟩
      exact (le_rank (distance_notNaN hx (finite_cases (hms m' hm')).1) (distance_notNaN hx (finite_cases (hms m hmem)).1)).2
        (distance_mono hx (hms m hmem) (hms m' hm') (le_of_lt (not_le.1 hle)))

/-! ## C58 -/

/-- All numbers attribute `d` of some points consists of. -/
def numbersAt (ps : List Point) (indices : List Nat) (d : AttrDef) : List Num :=
  (valuesAt ps indices d).flatMap (numbersOf d.datatype)

theorem pool_scalar {d : AttrDef} {p : Prim} (hd : d ∈ pooled) (hp : Spec.numberType d.datatype = some p) :
    scalarType d.datatype = some p ∧ (p = .f64 ∨ p.isInt = true) := by
  obtain ⟨hc, _⟩ := pooled_cases d hd
  rcases hc with ⟨ht, _⟩ | ⟨ht, _⟩ | ⟨ht, _⟩
  · rw [ht] at hp ⊢; cases hp; exact ⟨rfl, .inr rfl⟩
  · rw [ht] at hp ⊢; cases hp; exact ⟨rfl, .inl rfl⟩
  · rw [ht] at hp ⊢; cases hp; exact ⟨rfl, .inr rfl⟩

theorem le_of_greatest {x : F64} {xs : List F64} (h : Greatest x (Flt.zero .f64 :: xs.filter fun y => !y.isNaN)) :
    Flt.le (Flt.zero .f64) x = true ∧ ∀ y ∈ xs, y.isNaN = false → Flt.le y x = true :=
  ⟨h.2 _ List.mem_cons_self, fun y hy hn => h.2 y (List.mem_cons_of_mem _ (List.mem_filter.2 ⟨hy, by rw [hn]; rfl⟩))⟩

/-- C58: the number a max-pooled attribute of an output point consists of is the greatest of those of the points in
    the voxel.

    Partial: one of the numbers must not be negative (`C58_violated_negative`), none is NaN, and integers are at most
    `2^53` (`C58_violated_large`). -/
theorem C58_partial (l : PointLayout) (ps : List Point) (indices : List Nat) (q : Point) (h : IsCentroid l ps indices q)
    (m : Member) (hm : m ∈ l.attributes) (hd : m.definition ∈ pooled) (p : Prim)
    (hp : Spec.numberType m.definition.datatype = some p)
    (hlen : ∀ v ∈ valuesAt ps indices m.definition, v.length = m.size)
    (hord : ∀ n ∈ numbersAt ps indices m.definition, Ordinary p n)
    (hpos : ∃ n ∈ numbersAt ps indices m.definition, Flt.le (Flt.zero .f64) (toDouble n) = true)
    (hbig : ∀ z, Num.int z ∈ numbersAt ps indices m.definition → z.natAbs ≤ 2 ^ 53) :
    ∃ v n, q.get m.definition = some v ∧ numbersOf m.definition.datatype v = [n] ∧
      (∀ k ∈ numbersAt ps indices m.definition, Cmp.le k n = true) ∧
      ∃ k ∈ numbersAt ps indices m.definition, Cmp.le n k = true := by
  have hF := usable_f64
  obtain ⟨v, hv, _, hr⟩ := h.2 m hm
  obtain ⟨x, h1, h2⟩ := hr.pool hd p hp
  change Greatest x (Flt.zero .f64 :: ((numbersAt ps indices m.definition).map toDouble).filter fun y => !y.isNaN) at h2
  obtain ⟨g1, g2⟩ := le_of_greatest h2
  obtain ⟨hs, hcase⟩ := pool_scalar hd hp
  refine ⟨v, asNum p (.double x), hv, h1, ?_⟩
  rcases hcase with rfl | hint
  · -- floats
    have hdouble : ∀ k ∈ numbersAt ps indices m.definition, ∃ y, k = .double y ∧ y.isNaN = false := by
      intro k hk
      have := hord k hk
      cases k with
      | int z => cases this
      | single y => cases this.1
      | double y => exact ⟨y, rfl, this.2⟩
    constructor
    · intro k hk
      obtain ⟨y, rfl, hy⟩ := hdouble k hk
      exact g2 y (List.mem_map.2 ⟨_, hk, rfl⟩) hy
    · rcases List.mem_cons.1 h2.1 with rfl | hx
      · obtain ⟨k, hk, hle⟩ := hpos
        obtain ⟨y, rfl, hy⟩ := hdouble k hk
        exact ⟨_, hk, hle⟩
      · obtain ⟨k, hk, hkx⟩ := List.mem_map.1 (List.mem_filter.1 hx).1
        obtain ⟨y, rfl, hy⟩ := hdouble k hk
        have hkx : y = x := hkx
        subst hkx
        exact ⟨_, hk, (le_rank hy hy).2 (Int.le_refl _)⟩
  · -- integers
    have hmem : ∀ k ∈ numbersAt ps indices m.definition, ∃ z, k = .int z ∧ p.lo ≤ z ∧ z ≤ p.hi ∧ z.natAbs ≤ 2 ^ 53 := by
      intro k hk
      obtain ⟨w, hw, hkw⟩ := List.mem_flatMap.1 hk
      rw [numbers_scalar hs, List.mem_singleton, readNum_int hint] at hkw
      subst hkw
      have hrange := read_range hint ((hlen w hw).trans (scalar_size hs).symm) (readNum_int hint w)
      exact ⟨_, rfl, hrange.1, hrange.2, hbig _ hk⟩
    have hone : (0 : Int) < FloatFormat.f64.one := by exact_mod_cast FloatFormat.one_pos (F := .f64)
    have hof : ∀ {z : Int}, z.natAbs ≤ 2 ^ 53 → (toDouble (.int z)).isFinite = true ∧
        (toDouble (.int z)).sunits = z * FloatFormat.f64.one := fun hz => ofInt_exact hF hz
    have hcmp : ∀ {a c : F64} {y z : Int}, a.isFinite = true → c.isFinite = true → a.sunits = y * FloatFormat.f64.one →
        c.sunits = z * FloatFormat.f64.one → (Flt.le a c = true ↔ y ≤ z) := by
      intro a c y z ha hc ea ec
      rw [le_iff hF a c ha hc, ← sunits_le_iff hF, ea, ec]
      exact ⟨fun h => le_of_mul_le_mul_right h hone, fun h => Int.mul_le_mul_of_nonneg_right h hone.le⟩
    -- the result is an integer
    have hz0 : ∃ z0 : Int, x.isFinite = true ∧ x.sunits = z0 * FloatFormat.f64.one ∧ p.lo ≤ z0 ∧ z0 ≤ p.hi ∧
        (z0 = 0 ∨ .int z0 ∈ numbersAt ps indices m.definition) := by
      rcases List.mem_cons.1 h2.1 with rfl | hx
      · refine ⟨0, by decide +kernel, ?_, (lo_hi p).1, (lo_hi p).2, .inl rfl⟩
        unfold sunits zero
        simp [FloatFormat.units_zero]
      · obtain ⟨k, hk, hkx⟩ := List.mem_map.1 (List.mem_filter.1 hx).1
        obtain ⟨z, rfl, r1, r2, r3⟩ := hmem k hk
        rw [← hkx]
        exact ⟨z, (hof r3).1, (hof r3).2, r1, r2, .inr hk⟩
    obtain ⟨z0, f0, s0, r1, r2, hor⟩ := hz0
    have hn : asNum p (.double x) = .int z0 := by
      have e : asNum p (.double x) = .int (x.toIntSat p.lo p.hi) := by
        cases p <;> first | rfl | cases hint
      rw [e]
      unfold toIntSat
      rw [if_neg (by rw [(finite_cases f0).1]; simp), if_neg (by rw [(finite_cases f0).2]; simp), s0,
        Int.mul_tdiv_cancel _ hone.ne']
      congr 1
      omega
    rw [hn]
    constructor
    · intro k hk
      obtain ⟨z, rfl, _, _, r3⟩ := hmem k hk
      have := g2 _ (List.mem_map.2 ⟨_, hk, rfl⟩) (finite_cases (hof r3).1).1
      exact decide_eq_true ((hcmp (hof r3).1 f0 (hof r3).2 s0).1 this)
    · rcases hor with rfl | hor
      · obtain ⟨k, hk, hle⟩ := hpos
        obtain ⟨z, rfl, _, _, r3⟩ := hmem k hk
        refine ⟨_, hk, decide_eq_true ?_⟩
        refine (hcmp (by decide +kernel) (hof r3).1 ?_ (hof r3).2).1 hle
        unfold sunits zero
        simp [FloatFormat.units_zero]
      · exact ⟨_, hor, decide_eq_true (Int.le_refl _)⟩

/-- C58, violated: if all numbers are negative, the result is zero. -/
theorem C58_violated_negative (l : PointLayout) (ps : List Point) (indices : List Nat) (q : Point)
    (h : IsCentroid l ps indices q) (m : Member) (hm : m ∈ l.attributes) (hd : m.definition = Las.gpsTime)
    (hneg : ∀ n ∈ numbersAt ps indices m.definition, ∃ y, n = .double y ∧ Flt.lt y (Flt.zero .f64) = true) :
    ∃ v, q.get m.definition = some v ∧ numbersOf .f64 v = [.double (Flt.zero .f64)] := by
  obtain ⟨v, hv, _, hr⟩ := h.2 m hm
  obtain ⟨x, h1, h2⟩ := hr.pool (by rw [hd]; decide +kernel) .f64 (by rw [hd]; rfl)
  change Greatest x (Flt.zero .f64 :: ((numbersAt ps indices m.definition).map toDouble).filter fun y => !y.isNaN) at h2
  refine ⟨v, hv, ?_⟩
  rw [show m.definition.datatype = .f64 by rw [hd]; rfl] at h1
  rw [h1]
  rcases List.mem_cons.1 h2.1 with rfl | hx
  · rfl
  · exfalso
    obtain ⟨k, hk, hkx⟩ := List.mem_map.1 (List.mem_filter.1 hx).1
    obtain ⟨y, rfl, hy⟩ := hneg k hk
    have hkx : y = x := hkx
    subst hkx
    have hyn : y.isNaN = false := by simpa using (List.mem_filter.1 hx).2
    have h3 := (le_rank notNaN_zero hyn).1 (le_of_greatest h2).1
    have h4 := (lt_rank hyn notNaN_zero).1 hy
    omega

/-! ## Examples -/

namespace VoxelExample

/-- Position, intensity and time. -/
def gridLayout : PointLayout := ⟨[⟨position3D, 0⟩, ⟨Las.intensity, 24⟩, ⟨Las.gpsTime, 32⟩], 40, 8⟩

theorem gridLayout_solid : Solid gridLayout :=
  ⟨by decide +kernel, by decide +kernel, by decide +kernel, by decide +kernel, by decide +kernel⟩

/-- The bytes of an integer as `f64`. -/
def f64Bytes (z : Int) : Bytes := writeNum .f64 (.double (Flt.ofInt .f64 z))

/-- A point on the x axis. -/
def gridRecord (x intensity time : Int) : Bytes :=
  f64Bytes x ++ zeros 16 ++ writeNum .u16 (.int intensity) ++ zeros 6 ++ f64Bytes time

def exBuffer : VectorBuffer :=
  Interleaved.ofRecords gridLayout [gridRecord 0 10 (-5), gridRecord 1 21 (-3), gridRecord 10 40 7]

/-- Cubes. -/
def cube (z : Int) : P3 F64 := ⟨Flt.ofInt .f64 z, Flt.ofInt .f64 z, Flt.ofInt .f64 z⟩

/-- Markers at 4, 8 and 12: the first two points make up the first voxel, and the third point is in the third voxel.
    The greatest time of the first voxel is -3, but the output has 0. -/
theorem exRun : voxelgridFilter 5 id exBuffer (cube 4) (VectorBuffer.newFromLayout gridLayout) =
    some (.ok (Interleaved.ofRecords gridLayout
      [writeNum .f64 (.double ((Flt.ofInt .f64 1).div (Flt.ofInt .f64 2))) ++ zeros 16 ++ writeNum .u16 (.int 15) ++
        zeros 6 ++ f64Bytes 0, gridRecord 10 40 7])) := by
  decide +kernel

/-- The points of the buffer. -/
def exPoints : List Point := [gridRecord 0 10 (-5), gridRecord 1 21 (-3), gridRecord 10 40 7].map (pointOf gridLayout)

theorem exShows : ShowsPoints exBuffer gridLayout exPoints :=
  interleaved_shows_points gridLayout_solid (by unfold AllLen; decide +kernel)

theorem exFinite : ∀ p ∈ positionsOf exPoints, FinitePosition p := by
  show ∀ p ∈ positionsOf exPoints, p.x.isFinite = true ∧ p.y.isFinite = true ∧ p.z.isFinite = true
  decide +kernel

theorem exCovered : Covered gridLayout gridLayout := by
  unfold Covered
  decide +kernel

/-- The hypotheses of `C57_partial` and `C57_terminates` hold for this buffer. -/
example : ∃ box, Tightest NotNaN box (positionsOf exPoints) ∧ ∀ kx ky kz : Nat,
    Reaches box.min.x box.max.x (cube 4).x kx → Reaches box.min.y box.max.y (cube 4).y ky →
    Reaches box.min.z box.max.z (cube 4).z kz → ∀ fuel, kx < fuel → ky < fuel → kz < fuel →
    ∃ voxels old cs target', voxelgridFilter fuel id exBuffer (cube 4) (VectorBuffer.newFromLayout gridLayout) =
        some (.ok target') ∧
      IsPartition ⟨markersOf box.min.x (cube 4).x kx, markersOf box.min.y (cube 4).y ky, markersOf box.min.z (cube 4).z kz⟩
        (positionsOf exPoints) voxels ∧
      voxels.length ≤ 3 ∧ RecordBuffer.Consistent target' ∧
      ShowsPoints (VectorBuffer.newFromLayout gridLayout) gridLayout old ∧ ShowsPoints target' gridLayout (old ++ cs) ∧
      List.Forall₂ (fun v c => IsCentroid gridLayout exPoints v.2 c) voxels cs :=
  C57_partial exBuffer gridLayout gridLayout_solid exPoints exShows (by decide +kernel) (by decide +kernel) exFinite
    (VectorBuffer.newFromLayout gridLayout) rfl gridLayout_solid exCovered id (fun _ => .refl _) (cube 4)
    (by unfold NotNaN; decide +kernel)

example : Reaches (Flt.ofInt .f64 0) (Flt.ofInt .f64 10) (cube 4).x 3 ∧ Reaches (Flt.ofInt .f64 0) (Flt.ofInt .f64 0) (cube 4).y 0 := by
  unfold Reaches
  decide +kernel

/-- `C57_diverges` applies to this buffer. -/
example (fuel : Nat) : voxelgridFilter fuel id exBuffer (cube 0) (VectorBuffer.newFromLayout gridLayout) = none :=
  C57_diverges exBuffer gridLayout gridLayout_solid exPoints exShows (by decide +kernel) exFinite id (cube 0) P3.x (.inl rfl)
    ⟨Flt.ofInt .f64 0, Flt.ofInt .f64 0, Flt.ofInt .f64 0⟩ ⟨Flt.ofInt .f64 10, Flt.ofInt .f64 0, Flt.ofInt .f64 0⟩
    (by decide +kernel) (by decide +kernel) (by decide +kernel) (by unfold Spec.Finite; decide +kernel)
    (by
      have e : (cube 0).x.sunits = 0 := by decide +kernel
      rw [value_eq usable_f64, e]
      simp) _ fuel

/-- `C58_violated_negative` applies to the first voxel. -/
example (q : Point) (h : IsCentroid gridLayout exPoints [0, 1] q) :
    ∃ v, q.get Las.gpsTime = some v ∧ numbersOf .f64 v = [.double (Flt.zero .f64)] :=
  C58_violated_negative gridLayout exPoints [0, 1] q h ⟨Las.gpsTime, 32⟩ (by decide +kernel) rfl (by
    intro n hn
    have hn : n ∈ [Num.double (Flt.ofInt .f64 (-5)), Num.double (Flt.ofInt .f64 (-3))] := by
      have e : numbersAt exPoints [0, 1] Las.gpsTime = [Num.double (Flt.ofInt .f64 (-5)), Num.double (Flt.ofInt .f64 (-3))] := by
        decide +kernel
      rw [← e]
      exact hn
    rcases List.mem_cons.1 hn with rfl | hn
    · exact ⟨_, rfl, by decide +kernel⟩
    · rw [List.mem_singleton.1 hn]
      exact ⟨_, rfl, by decide +kernel⟩)

/-- `C58_partial` applies to the voxel of the last two points. -/
example (q : Point) (h : IsCentroid gridLayout exPoints [1, 2] q) : ∃ v n, q.get Las.gpsTime = some v ∧
    numbersOf .f64 v = [n] ∧ (∀ k ∈ numbersAt exPoints [1, 2] Las.gpsTime, Cmp.le k n = true) ∧
    ∃ k ∈ numbersAt exPoints [1, 2] Las.gpsTime, Cmp.le n k = true := by
  have e : numbersAt exPoints [1, 2] Las.gpsTime = [Num.double (Flt.ofInt .f64 (-3)), Num.double (Flt.ofInt .f64 7)] := by
    decide +kernel
  refine C58_partial gridLayout exPoints [1, 2] q h ⟨Las.gpsTime, 32⟩ (by decide +kernel) (by decide +kernel) .f64 rfl
    (by decide +kernel) ?_ ?_ ?_
  · show ∀ n ∈ numbersAt exPoints [1, 2] Las.gpsTime, _
    rw [e]
    intro n hn
    rcases List.mem_cons.1 hn with rfl | hn
    · exact ⟨rfl, by unfold NotNaN; decide +kernel⟩
    · rw [List.mem_singleton.1 hn]
      exact ⟨rfl, by unfold NotNaN; decide +kernel⟩
  · show ∃ n ∈ numbersAt exPoints [1, 2] Las.gpsTime, _
    rw [e]
    exact ⟨_, List.mem_cons_of_mem _ List.mem_cons_self, by decide +kernel⟩
  · show ∀ z, Num.int z ∈ numbersAt exPoints [1, 2] Las.gpsTime → _
    rw [e]
    intro z hz
    rcases List.mem_cons.1 hz with hz | hz
    · cases hz
    · cases List.mem_singleton.1 hz

end VoxelExample

open VoxelExample in
/-- C57, violated: the run gives two points, one for each voxel, although both points are nearer to the first marker
    than to the second: the distances of the second point, `2^53 + 3` and `2^53 + 5`, are both rounded to `2^53 + 4`. -/
theorem C57_nearest_violated :
    voxelgridFilter 5 id
        (Interleaved.ofRecords gridLayout [gridRecord (-(3 * 2 ^ 53 + 4)) 1 1, gridRecord 7 2 2] : VectorBuffer)
        (cube (2 ^ 54 + 8)) (VectorBuffer.newFromLayout gridLayout) =
      some (.ok (Interleaved.ofRecords gridLayout [gridRecord (-(3 * 2 ^ 53 + 4)) 1 1, gridRecord 7 2 2])) ∧
    Reaches (Flt.ofInt .f64 (-(3 * 2 ^ 53 + 4))) (Flt.ofInt .f64 7) (cube (2 ^ 54 + 8)).x 2 ∧
    ∀ x ∈ [Flt.ofInt .f64 (-(3 * 2 ^ 53 + 4)), Flt.ofInt .f64 7],
      |value x - value (marker (Flt.ofInt .f64 (-(3 * 2 ^ 53 + 4))) (cube (2 ^ 54 + 8)).x 1)| <
        |value x - value (marker (Flt.ofInt .f64 (-(3 * 2 ^ 53 + 4))) (cube (2 ^ 54 + 8)).x 2)| := by
  refine ⟨by decide +kernel, by unfold Reaches; decide +kernel, ?_⟩
  have hF := usable_f64
  have hone : (0 : ℚ) < FloatFormat.f64.one := by exact_mod_cast FloatFormat.one_pos (F := .f64)
  have key : ∀ x ∈ [Flt.ofInt .f64 (-(3 * 2 ^ 53 + 4)), Flt.ofInt .f64 7],
      (x.sunits - (marker (Flt.ofInt .f64 (-(3 * 2 ^ 53 + 4))) (cube (2 ^ 54 + 8)).x 1).sunits).natAbs <
        (x.sunits - (marker (Flt.ofInt .f64 (-(3 * 2 ^ 53 + 4))) (cube (2 ^ 54 + 8)).x 2).sunits).natAbs := by
    decide +kernel
  intro x hx
  have h := key x hx
  generalize marker (Flt.ofInt .f64 (-(3 * 2 ^ 53 + 4))) (cube (2 ^ 54 + 8)).x 1 = a at h ⊢
  generalize marker (Flt.ofInt .f64 (-(3 * 2 ^ 53 + 4))) (cube (2 ^ 54 + 8)).x 2 = c at h ⊢
  have habs : ∀ y : F64, |value x - value y| = ((x.sunits - y.sunits).natAbs : ℚ) / FloatFormat.f64.one := by
    intro y
    rw [value_eq hF, value_eq hF, ← sub_div, abs_div, abs_of_pos hone, Nat.cast_natAbs]
    push_cast
    rfl
  rw [habs, habs, div_lt_div_iff_of_pos_right hone]
  exact_mod_cast h

/-- Position and id. -/
def idLayout : PointLayout := ⟨[⟨position3D, 0⟩, ⟨pointId, 24⟩], 32, 8⟩

/-- C58, violated: the id of a single point is 2^53 + 1; the output has 2^53. -/
theorem C58_violated_large :
    voxelgridFilter 5 id (Interleaved.ofRecords idLayout [zeros 24 ++ writeNum .u64 (.int (2 ^ 53 + 1))] : VectorBuffer)
        (VoxelExample.cube 1) (VectorBuffer.newFromLayout idLayout) =
      some (.ok (Interleaved.ofRecords idLayout [zeros 24 ++ writeNum .u64 (.int (2 ^ 53))])) := by
  decide +kernel

end Pasture.Props
