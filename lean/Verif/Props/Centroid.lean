import Verif.Lemmas.CentroidError
import Verif.Lemmas.NormalGeometry
import Verif.Props.ConvexHull

/-!
# Property C73 (`compute_centroid`)
-/

namespace Pasture.Props

open Spec BorrowedBuffer Normals

/-! ## The positions -/

theorem positions_normals {β : Type} [BorrowedBuffer β] {b : β} {l : PointLayout} {ps : List Point} (hl : Solid l)
    (h : ShowsPoints b l ps) (hpos : position3D ∈ l.attributes.map Member.definition) :
    Normals.positions b = .ok (positionsOf ps) ∧ (positionsOf ps).length = ps.length := by
  obtain ⟨m, hm, hd⟩ := List.mem_map.1 hpos
  obtain ⟨xs, hx, _⟩ := column_some hl h hm
  have hx' : xs = ps.filterMap fun p => p.get position3D := by rw [← hd]; exact column_all hx
  have hposs : positionsOf ps = xs.map readVec3F64 := by unfold positionsOf; rw [← hx']; rfl
  have hty : m.datatype = .vec3f64 := by
    show m.definition.datatype = _
    rw [hd]
    rfl
  refine ⟨?_, by rw [hposs, List.length_map, (column_get hx).1]⟩
  unfold Normals.positions
  rw [show AttributeView.new b .vec3f64 position3D = .ok ⟨.vec3f64, m⟩ from
    (C62_attribute_view_checks b l hl ps h _ _).1 rfl m hm hd]
  simp only [bind, Except.bind]
  rw [← hty, view_values hl h hm hx, hposs]
  rfl

theorem compute_centroid {β : Type} [BorrowedBuffer β] {b : β} {l : PointLayout} {ps : List Point} (hl : Solid l)
    (h : ShowsPoints b l ps) (hpos : position3D ∈ l.attributes.map Member.definition) (hne : ps ≠ []) :
    computeCentroid b = centroid (positionsOf ps) := by
  unfold computeCentroid
  rw [assertThat_true (by rw [h.len_eq]; simpa using hne), (positions_normals hl h hpos).1]
  rfl

/-! ## The points that count -/

theorem fold_points : ∀ (ps : List (P3 F64)) (s : P3 F64), ps.foldl addPoint s =
    ⟨(ps.map P3.x).foldl Flt.add s.x, (ps.map P3.y).foldl Flt.add s.y, (ps.map P3.z).foldl Flt.add s.z⟩
  | [], s => rfl
  | p :: ps, s => by rw [List.foldl_cons, fold_points ps]; rfl

theorem fold_finite : ∀ (ps : List (P3 F64)) (s : P3 F64) (n : Nat), ps.foldl centroidStep (s, n) =
    ((ps.filter finitePoint).foldl addPoint s, n + (ps.filter finitePoint).length)
  | [], s, n => rfl
  | p :: ps, s, n => by
    rw [List.foldl_cons, List.filter_cons]
    unfold centroidStep
    cases hp : finitePoint p
    · simp only [Bool.false_eq_true, if_false]
      exact fold_finite ps s n
    · simp only [if_true]
      refine (fold_finite ps _ _).trans ?_
      rw [List.foldl_cons, List.length_cons]
      congr 1
      omega

theorem finitePoint_iff (p : P3 F64) : finitePoint p = true ↔ FinitePoint p := by
  unfold finitePoint FinitePoint
  simp [Number.isFinite, and_assoc]

theorem not_dense {ps : List (P3 F64)} (h : ∃ p ∈ ps, SomeNaN p) : isDense ps = false := by
  obtain ⟨p, hp, hn⟩ := h
  unfold isDense
  rw [List.all_eq_false]
  refine ⟨p, hp, ?_⟩
  unfold SomeNaN at hn
  simp only [Number.isNaN]
  rcases hn with hn | hn | hn <;> simp [hn]

theorem dense_of_finite {ps : List (P3 F64)} (h : ∀ p ∈ ps, FinitePoint p) : isDense ps = true := by
  unfold isDense
  rw [List.all_eq_true]
  intro p hp
  obtain ⟨h1, h2, h3⟩ := h p hp
  simp only [Number.isNaN]
  rw [(Flt.finite_cases h1).1, (Flt.finite_cases h2).1, (Flt.finite_cases h3).1]
  rfl

theorem centroid_finite {ps : List (P3 F64)} (hne : ps ≠ []) (h : (∀ p ∈ ps, FinitePoint p) ∨ ∃ p ∈ ps, SomeNaN p) :
    let good := ps.filter fun p => FinitePoint p
    let mean := fun xs : List F64 => Flt.div (xs.foldl Flt.add (Flt.zero .f64)) (Flt.ofInt .f64 good.length)
    centroid ps = .ok ⟨mean (good.map P3.x), mean (good.map P3.y), mean (good.map P3.z)⟩ := by
  have hfilter : (ps.filter fun p => FinitePoint p) = ps.filter finitePoint := by
    congr 1
    funext p
    rw [Bool.eq_iff_iff, finitePoint_iff]
    simp
  intro good mean
  unfold centroid
  rw [if_neg (by simpa using hne)]
  rcases h with h | h
  · have hg : good = ps := List.filter_eq_self.2 fun p hp => by simpa using h p hp
    simp only [dense_of_finite h, if_true, fold_points]
    rw [hg]
    simp only [mean, hg]
    rfl
  · simp only [not_dense h, Bool.false_eq_true, if_false, fold_finite, fold_points, Nat.zero_add]
    rw [← hfilter]
    rfl

section
variable {β : Type} [BorrowedBuffer β] (b : β) (l : PointLayout) (hl : Solid l) (ps : List Point) (h : ShowsPoints b l ps)
  (hpos : position3D ∈ l.attributes.map Member.definition)
include hl h hpos

/-- **C73** (`f64`): the centroid of points that are finite, or of the finite ones if a coordinate is a NaN, is their mean
    up to rounding errors. -/
theorem C73_partial (hfin : (∀ p ∈ positionsOf ps, FinitePoint p) ∨ ∃ p ∈ positionsOf ps, SomeNaN p)
    (hsome : ∃ p ∈ positionsOf ps, FinitePoint p) (hn : ps.length ≤ 2 ^ 52) (M : ℚ)
    (hM : ∀ p ∈ positionsOf ps, FinitePoint p → UpTo M p) (hB : 2 * ps.length * M ≤ 2 ^ 1000) :
    let good := (positionsOf ps).filter fun p => FinitePoint p
    ∃ c, computeCentroid b = .ok c ∧ NearMean M (good.map P3.x) c.x ∧ NearMean M (good.map P3.y) c.y ∧
      NearMean M (good.map P3.z) c.z := by
  intro good
  have hlen := (positions_normals hl h hpos).2
  have hne : positionsOf ps ≠ [] := by
    obtain ⟨p, hp, _⟩ := hsome
    rintro e
    rw [e] at hp
    cases hp
  have hne' : ps ≠ [] := by
    rintro rfl
    exact hne rfl
  have hgne : good ≠ [] := by
    obtain ⟨p, hp, hf⟩ := hsome
    have : p ∈ good := List.mem_filter.2 ⟨hp, by simpa using hf⟩
    rintro e
    rw [e] at this
    cases this
  have hglen : good.length ≤ ps.length := hlen ▸ List.length_filter_le _ _
  have hup : ∀ p ∈ good, FinitePoint p ∧ UpTo M p := by
    intro p hp
    obtain ⟨h1, h2⟩ := List.mem_filter.1 hp
    have h2 : FinitePoint p := by simpa using h2
    exact ⟨h2, hM p h1 h2⟩
  have hM0 : 0 ≤ M := by
    obtain ⟨p, hp⟩ := List.exists_mem_of_ne_nil _ hgne
    exact (abs_nonneg _).trans (hup p hp).2.1
  have hB' : 2 * (good.length : ℚ) * M ≤ 2 ^ 1000 := by
    refine le_trans ?_ hB
    have : (good.length : ℚ) ≤ ps.length := by exact_mod_cast hglen
    exact mul_le_mul_of_nonneg_right (by linarith) hM0
  rw [compute_centroid hl h hpos hne']
  refine ⟨_, centroid_finite hne hfin, ?_⟩
  have key : ∀ f : P3 F64 → F64, (∀ p ∈ good, (f p).isFinite = true ∧ |value (f p)| ≤ M) → NearMean M (good.map f)
      (Flt.div ((good.map f).foldl Flt.add (Flt.zero .f64)) (Flt.ofInt .f64 good.length)) := by
    intro f hf
    have hl' : (good.map f).length = good.length := List.length_map _
    have := mean_error (M := M) (xs := good.map f) hM0 (by simpa using hgne) (by rw [hl']; omega)
      (by rw [hl']; exact hB') (by
        intro x hx
        obtain ⟨p, hp, rfl⟩ := List.mem_map.1 hx
        exact hf p hp)
    rw [hl'] at this
    unfold NearMean
    rw [hl']
    exact this
  exact ⟨key P3.x fun p hp => ⟨(hup p hp).1.1, (hup p hp).2.1⟩,
    key P3.y fun p hp => ⟨(hup p hp).1.2.1, (hup p hp).2.2.1⟩,
    key P3.z fun p hp => ⟨(hup p hp).1.2.2, (hup p hp).2.2.2⟩⟩

/-- C73 (`f64`): if the coordinates are whole numbers with a sum of magnitudes up to `2^53`, the centroid is the correctly
    rounded mean. -/
theorem C73_whole (hne : ps ≠ []) (hn : ps.length ≤ 2 ^ 53) (zs : List (P3 Int)) (hz : List.Forall₂ (fun (p : P3 F64) (z : P3 Int) =>
      (p.x.isFinite = true ∧ value p.x = z.x) ∧ (p.y.isFinite = true ∧ value p.y = z.y) ∧
      (p.z.isFinite = true ∧ value p.z = z.z)) (positionsOf ps) zs)
    (hx : (zs.map fun z => |z.x|).sum ≤ 2 ^ 53) (hy : (zs.map fun z => |z.y|).sum ≤ 2 ^ 53)
    (hz' : (zs.map fun z => |z.z|).sum ≤ 2 ^ 53) :
    ∃ c, computeCentroid b = .ok c ∧ RoundsTo (exactMean ((positionsOf ps).map P3.x)) c.x ∧
      RoundsTo (exactMean ((positionsOf ps).map P3.y)) c.y ∧ RoundsTo (exactMean ((positionsOf ps).map P3.z)) c.z := by
  have hlen := (positions_normals hl h hpos).2
  have hne' : positionsOf ps ≠ [] := by rw [← List.length_pos_iff, hlen]; exact List.length_pos_iff.2 hne
  have hzip : ∀ (qs : List (P3 F64)) (zs : List (P3 Int)), List.Forall₂ (fun (p : P3 F64) (z : P3 Int) =>
      (p.x.isFinite = true ∧ value p.x = z.x) ∧ (p.y.isFinite = true ∧ value p.y = z.y) ∧
      (p.z.isFinite = true ∧ value p.z = z.z)) qs zs →
      (∀ p ∈ qs.zip zs, Whole p.1.x p.2.x ∧ Whole p.1.y p.2.y ∧ Whole p.1.z p.2.z) ∧ qs.length = zs.length := by
    intro qs zs h
    induction h with
    | nil => simp
    | cons h1 _ ih =>
      refine ⟨?_, by simp [ih.2]⟩
      intro p hp
      rw [List.zip_cons_cons] at hp
      rcases List.mem_cons.1 hp with rfl | hp
      · exact ⟨⟨h1.1.1, h1.1.2⟩, ⟨h1.2.1.1, h1.2.1.2⟩, ⟨h1.2.2.1, h1.2.2.2⟩⟩
      · exact ih.1 p hp
  obtain ⟨hw, hl2⟩ := hzip _ _ hz
  rw [compute_centroid hl h hpos hne]
  generalize positionsOf ps = qs at *
  have hfin : ∀ p ∈ qs, FinitePoint p := by
    intro p hp
    obtain ⟨i, hi, rfl⟩ := List.getElem_of_mem hp
    have := hw (qs[i], zs[i]'(by omega)) (List.mem_iff_getElem.2 ⟨i, by simp; omega, by simp⟩)
    exact ⟨this.1.finite, this.2.1.finite, this.2.2.finite⟩
  have hg : (qs.filter fun p => FinitePoint p) = qs := List.filter_eq_self.2 fun p hp => by simpa using hfin p hp
  refine ⟨_, centroid_finite hne' (.inl hfin), ?_⟩
  rw [hg]
  have hcount := whole_of_int (z := qs.length) (by
    rw [abs_of_nonneg (by omega), hlen]
    exact_mod_cast hn)
  have hv : value (Flt.ofInt .f64 (qs.length : Int)) = (qs.length : ℚ) := by rw [hcount.value_eq]; simp
  have hq0 : (qs.length : ℚ) ≠ 0 := by
    have := List.length_pos_iff.2 hne'
    exact_mod_cast this.ne'
  have key : ∀ (f : P3 F64 → F64) (g : P3 Int → Int), (∀ p ∈ qs.zip zs, Whole (f p.1) (g p.2)) →
      (zs.map fun z => |g z|).sum ≤ 2 ^ 53 → RoundsTo (exactMean (qs.map f))
        (Flt.div ((qs.map f).foldl Flt.add (Flt.zero .f64)) (Flt.ofInt .f64 qs.length)) := by
    intro f g hfg hsum
    have e1 : ((qs.zip zs).map fun p => (f p.1, g p.2)).map Prod.fst = qs.map f := by
      rw [List.map_map]
      show (qs.zip zs).map (f ∘ Prod.fst) = _
      rw [← List.map_map, List.map_fst_zip (by omega)]
    have e2 : ((qs.zip zs).map fun p => (f p.1, g p.2)).map Prod.snd = zs.map g := by
      rw [List.map_map]
      show (qs.zip zs).map (g ∘ Prod.snd) = _
      rw [← List.map_map, List.map_snd_zip (by omega)]
    have hws := whole_sum (B := 2 ^ 53) (le_refl _) ((qs.zip zs).map fun p => (f p.1, g p.2)) (Flt.zero .f64) 0 (by
        intro x hx
        obtain ⟨p, hp, rfl⟩ := List.mem_map.1 hx
        exact hfg p hp) whole_zero (by
        have : (((qs.zip zs).map fun p => (f p.1, g p.2)).map fun x => |x.2|) = zs.map fun z => |g z| := by
          rw [List.map_map]
          show (qs.zip zs).map ((fun z => |g z|) ∘ Prod.snd) = _
          rw [← List.map_map, List.map_snd_zip (by omega)]
        rw [this]
        simpa using hsum)
    rw [e1, e2, zero_add] at hws
    have hr := Flt.div_rounds usable_f64 _ _ hws.finite hcount.finite (by rw [hv]; exact hq0)
    have es : ((qs.map f).map value).sum = (((zs.map g).sum : Int) : ℚ) := by
      have : (qs.map f).map value = (zs.map g).map fun z : Int => (z : ℚ) := by
        rw [← e1, ← e2, List.map_map, List.map_map, List.map_map, List.map_map]
        apply List.map_congr_left
        intro p hp
        exact (hfg p hp).value_eq
      rw [this]
      exact (Int.cast_list_sum _).symm
    unfold exactMean
    rw [List.length_map, es, ← hws.value_eq, ← hv]
    exact hr
  exact ⟨key P3.x P3.x (fun p hp => (hw p hp).1) hx, key P3.y P3.y (fun p hp => (hw p hp).2.1) hy,
    key P3.z P3.z (fun p hp => (hw p hp).2.2) hz'⟩

omit hpos in
/-- C73: without points, or without `f64` positions, `compute_centroid` panics. -/
theorem C73_panics (hbad : ps = [] ∨ position3D ∉ l.attributes.map Member.definition) : computeCentroid b = panicked := by
  unfold computeCentroid
  by_cases he : ps = []
  · rw [assertThat_false (by rw [h.len_eq, he]; rfl)]
    rfl
  · rw [assertThat_true (by rw [h.len_eq]; simpa using he)]
    unfold Normals.positions
    rw [(C62_attribute_view_checks b l hl ps h .vec3f64 position3D).2 fun hc => hbad.resolve_left he hc.2]
    rfl

end

/-- C73: in exact arithmetic the centroid is the mean. -/
theorem C73_exact (ps : List (P3 ℝ)) (h : ps ≠ []) : centroid ps = .ok (meanPoint ps) := centroid_real h

/-- The documentation of `compute_centroid` says that the centroid has the same distance to all points. It has not. -/
theorem C73_documented_violated : ∃ (ps : List (P3 ℝ)) (c : P3 ℝ), centroid ps = .ok c ∧
    ∃ p ∈ ps, ∃ q ∈ ps, scalar (minus p c) (minus p c) ≠ scalar (minus q c) (minus q c) := by
  refine ⟨[⟨0, 0, 0⟩, ⟨1, 0, 0⟩, ⟨5, 0, 0⟩], _, C73_exact _ (by simp), ⟨0, 0, 0⟩, by simp, ⟨1, 0, 0⟩, by simp, ?_⟩
  simp only [scalar, minus, meanPoint, meanOf, List.map_cons, List.map_nil, List.sum_cons, List.sum_nil, List.length_cons,
    List.length_nil]
  norm_num

/-! ## Infinite coordinates, and examples -/

namespace CentroidExample

open RansacExample

/-- A buffer with these positions. -/
def cloud (ps : List (P3 F64)) : VectorBuffer := Interleaved.ofRecords positionLayout (ps.map Reprojection.writeVec3F64)

/-- A point with whole coordinates. -/
def wholePoint (x y z : Int) : P3 F64 := ⟨.ofInt .f64 x, .ofInt .f64 y, .ofInt .f64 z⟩

/-- A point with an infinite coordinate. -/
def farPoint : P3 F64 := ⟨posInf, .ofInt .f64 0, .ofInt .f64 0⟩

/-- A point with a coordinate that is no number. -/
def noPoint : P3 F64 := ⟨⟨false, 2 ^ 63 - 1⟩, .ofInt .f64 0, .ofInt .f64 0⟩

end CentroidExample

open CentroidExample RansacExample

/-- C73 does not hold with infinite coordinates: a point with an infinite coordinate counts, unless another point has a
    coordinate that is a NaN. The check of `compute_centroid` for points to skip looks for NaNs only. -/
theorem C73_infinite_violated :
    computeCentroid (cloud [farPoint, wholePoint 2 0 0]) = .ok farPoint ∧
    computeCentroid (cloud [farPoint, wholePoint 2 0 0, noPoint]) = .ok (wholePoint 2 0 0) := by
  decide +kernel

/-- The points of the first example are of the kind C73 excludes: not all are finite, and there is no NaN. -/
example : ¬FinitePoint farPoint ∧ FinitePoint (wholePoint 2 0 0) ∧ SomeNaN noPoint := by
  unfold SomeNaN
  decide +kernel

/-- If no point is finite, the centroid is a NaN. -/
example : ∃ c, computeCentroid (cloud [noPoint]) = .ok c ∧ c.x.isNaN = true := by
  have h : ((computeCentroid (cloud [noPoint])).toOption.map fun c => c.x.isNaN) = some true := by decide +kernel
  cases hc : computeCentroid (cloud [noPoint]) with
  | error e => rw [hc] at h; cases h
  | ok c => rw [hc] at h; exact ⟨c, rfl, Option.some.inj h⟩

theorem cloud_shows : ShowsPoints (cloud [wholePoint 1 0 0, noPoint, wholePoint 0 1 0, wholePoint 1 1 5]) positionLayout
    (([wholePoint 1 0 0, noPoint, wholePoint 0 1 0, wholePoint 1 1 5].map Reprojection.writeVec3F64).map
      (pointOf positionLayout)) :=
  interleaved_shows_points positionLayout_solid (by unfold AllLen; decide +kernel)

theorem cloud_positions : positionsOf (([wholePoint 1 0 0, noPoint, wholePoint 0 1 0, wholePoint 1 1 5].map
    Reprojection.writeVec3F64).map (pointOf positionLayout)) =
      [wholePoint 1 0 0, noPoint, wholePoint 0 1 0, wholePoint 1 1 5] := by decide +kernel

/-- C73 applies to a cloud with a NaN. -/
example : ∃ c, computeCentroid (cloud [wholePoint 1 0 0, noPoint, wholePoint 0 1 0, wholePoint 1 1 5]) = .ok c ∧
    NearMean 5 [.ofInt .f64 1, .ofInt .f64 0, .ofInt .f64 1] c.x ∧
    NearMean 5 [.ofInt .f64 0, .ofInt .f64 1, .ofInt .f64 1] c.y ∧
    NearMean 5 [.ofInt .f64 0, .ofInt .f64 0, .ofInt .f64 5] c.z := by
  have h := C73_partial _ positionLayout positionLayout_solid _ cloud_shows (by decide +kernel) (by
    rw [cloud_positions]
    exact .inr ⟨noPoint, by simp, .inl (by decide +kernel)⟩) (by
    rw [cloud_positions]
    exact ⟨wholePoint 1 0 0, by simp, by decide +kernel⟩) (by decide) 5 (by
    rw [cloud_positions]
    unfold UpTo
    decide +kernel) (by
    simp only [List.length_map, List.length_cons, List.length_nil]
    calc (2 : ℚ) * ((0 + 1 + 1 + 1 + 1 : Nat) : ℚ) * 5 ≤ 2 ^ 10 := by norm_num
      _ ≤ 2 ^ 1000 := pow_le_pow_right₀ (by norm_num) (by norm_num))
  have hg : ([wholePoint 1 0 0, noPoint, wholePoint 0 1 0, wholePoint 1 1 5].filter fun p => FinitePoint p) =
      [wholePoint 1 0 0, wholePoint 0 1 0, wholePoint 1 1 5] := by decide +kernel
  rw [cloud_positions, hg] at h
  exact h

/-- C73 applies to whole coordinates: the mean of 0, 4, 0, 1, 0 is 1. -/
example : ∃ c, computeCentroid (HullExample.hullBuffer HullExample.tetrahedron) = .ok c ∧ RoundsTo 1 c.x ∧ RoundsTo 1 c.y ∧
    RoundsTo 1 c.z := by
  have hp : positionsOf ((HullExample.tetrahedron.map fun p => positionRecord p.1 p.2.1 p.2.2).map (pointOf positionLayout)) =
      HullExample.tetrahedron.map fun p => wholePoint p.1 p.2.1 p.2.2 := by decide +kernel
  have h := C73_whole _ positionLayout positionLayout_solid _ HullExample.tetrahedron_shows (by decide +kernel)
    (by decide) (by decide) (HullExample.tetrahedron.map fun p => ⟨p.1, p.2.1, p.2.2⟩) (by
      rw [hp, List.forall₂_map_left_iff, List.forall₂_map_right_iff, List.forall₂_same]
      decide +kernel) (by decide) (by decide) (by decide)
  rw [hp] at h
  have hx : exactMean ((HullExample.tetrahedron.map fun p => wholePoint p.1 p.2.1 p.2.2).map P3.x) = 1 := by decide +kernel
  have hy : exactMean ((HullExample.tetrahedron.map fun p => wholePoint p.1 p.2.1 p.2.2).map P3.y) = 1 := by decide +kernel
  have hz : exactMean ((HullExample.tetrahedron.map fun p => wholePoint p.1 p.2.1 p.2.2).map P3.z) = 1 := by decide +kernel
  rw [hx, hy, hz] at h
  exact h

end Pasture.Props
