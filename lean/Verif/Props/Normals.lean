import Verif.Lemmas.NormalFloat
import Verif.Lemmas.NormalQuality
import Verif.Lemmas.RecordBuffer
import Verif.Props.Centroid
import Verif.Props.Reprojection

/-!
# Property C74 (`compute_normals`)

The estimate for the neighbors of one point, in exact arithmetic and with `f64`, and the results for a whole cloud.
-/

namespace Pasture.Props

open Spec BorrowedBuffer Normals

/-! ## The estimate in exact arithmetic -/

theorem collinear_flat {ps : List (P3 ℝ)} (h : ¬Collinear ps) : 0 < largestEntry (Normals.scatter (meanPoint ps) ps) := by
  rcases (largestEntry_nonneg (Normals.scatter (meanPoint ps) ps)).lt_or_eq with h1 | h1
  · exact h1
  · exfalso
    apply h
    apply collinear_of_crosses (c := meanPoint ps)
    rw [largestEntry_zero h1.symm]
    simp [crosses, Vec3.cross, Arith.mul, Arith.sub]

/-- **C74** (exact arithmetic): the normal of at least three points that are not on a line is not zero, and the plane
    through the mean with this normal is at most `√3` times as far from the points as any other (in the sum of the squared
    distances). -/
theorem C74_normal_partial (ps : List (P3 ℝ)) (h3 : 3 ≤ ps.length) (hl : ¬Collinear ps) :
    ∃ n c, normalEstimation exactTrig ps = .ok (n, c) ∧ n ≠ ⟨0, 0, 0⟩ ∧
      ∀ m, spread ps n * scalar m m ≤ √3 * (spread ps m * scalar n n) := by
  obtain ⟨n, c, l, h1, _, hn, _⟩ := estimate_real h3
  refine ⟨n, c, h1, ?_⟩
  have hs := collinear_flat hl
  obtain ⟨hmem, hmax⟩ := largest_real (scaled (Normals.scatter (meanPoint ps) ps) (largestEntry (Normals.scatter (meanPoint ps) ps)))
  rw [← hn, crosses_scaled] at hmem hmax
  generalize hk : 1 / largestEntry (Normals.scatter (meanPoint ps) ps) ^ 2 = k at hmem hmax
  have hk0 : 0 < k := by rw [← hk]; positivity
  obtain ⟨r, hr, rfl⟩ := List.mem_map.1 hmem
  have hmax' : ∀ q ∈ crosses (Normals.scatter (meanPoint ps) ps), scalar q q ≤ scalar r r := by
    intro q hq
    have := hmax _ (List.mem_map_of_mem hq)
    rw [scalar_times, scalar_times] at this
    exact le_of_mul_le_mul_left this (by positivity)
  constructor
  · intro hz
    apply hl
    apply collinear_of_crosses (c := meanPoint ps)
    intro q hq
    by_contra hq0
    have h2 := hmax _ (List.mem_map_of_mem hq)
    rw [hz, scalar_zero, scalar_times] at h2
    have := mul_pos (by positivity : 0 < k ^ 2) (scalar_pos hq0)
    linarith
  · intro m
    have := near_best hr hmax' m
    rw [spread_times, scalar_times]
    have hk2 : 0 ≤ k ^ 2 := by positivity
    calc k ^ 2 * spread ps r * scalar m m = k ^ 2 * (spread ps r * scalar m m) := by ring
      _ ≤ k ^ 2 * (√3 * (spread ps m * scalar r r)) := mul_le_mul_of_nonneg_left this hk2
      _ = √3 * (spread ps m * (k ^ 2 * scalar r r)) := by ring

/-- C74 (exact arithmetic): for points in a plane that are not on a line the normal is orthogonal to the plane and the
    curvature is 0. -/
theorem C74_plane_partial (trig : Trig ℝ) (ps : List (P3 ℝ)) (h3 : 3 ≤ ps.length) (hp : Coplanar ps) (hl : ¬Collinear ps) :
    ∃ n, normalEstimation trig ps = .ok (n, 0) ∧ (∀ p ∈ ps, ∀ q ∈ ps, scalar n (minus p q) = 0) ∧ BestNormal ps n := by
  obtain ⟨n, h1, h2, h3, h4⟩ := plane_estimate trig h3 hp hl
  refine ⟨n, h1, h3, h2, fun m => ?_⟩
  rw [h4, zero_mul]
  exact mul_nonneg (spread_nonneg ps m) (scalar_self n)

/-- The largest sum of squared deviations from the mean along an axis. -/
noncomputable def axisSpread (ps : List (P3 ℝ)) : ℝ :=
  Max.max (Max.max (spread ps ⟨1, 0, 0⟩) (spread ps ⟨0, 1, 0⟩)) (spread ps ⟨0, 0, 1⟩)

/-- C74 (exact arithmetic): the curvature is the surface variation **times the largest sum of squared deviations along an
    axis**, or 0. It is 0 only if the cube of the least sum of squared distances from a plane is less
    than `2^-52`. -/
theorem C74_curvature_partial (ps : List (P3 ℝ)) (h3 : 3 ≤ ps.length) (h0 : totalSpread ps ≠ 0) :
    ∃ n c v, normalEstimation exactTrig ps = .ok (n, c) ∧ SurfaceVariation ps v ∧
      (c = v * axisSpread ps ∨ c = 0 ∧ (v * totalSpread ps) ^ 3 < 1 / 2 ^ 52) := by
  obtain ⟨n, c, l, h1, hl, _, hc⟩ := estimate_real h3
  refine ⟨n, c, l.x / totalSpread ps, h1, variation_of_least hl (div_mul_cancel₀ _ h0), ?_⟩
  rw [if_neg h0] at hc
  have hlarge : largestEntry (Normals.scatter (meanPoint ps) ps) = axisSpread ps := largest_diagonal ps
  rw [hlarge] at hc
  by_cases hd : |coefficient0 (Normals.scatter (meanPoint ps) ps)| < 1 / 2 ^ 52
  · right
    rw [if_pos hd] at hc
    refine ⟨hc, ?_⟩
    rw [div_mul_cancel₀ _ h0]
    have hx := least_nonneg hl
    have hv := (vieta hl).2.2
    have hy : 0 ≤ l.y := hx.trans hl.le1
    have hcube : l.x ^ 3 ≤ coefficient0 (Normals.scatter (meanPoint ps) ps) := by
      rw [hv]
      have e : l.x ^ 3 = l.x * l.x * l.x := by ring
      rw [e]
      exact mul_le_mul (mul_le_mul_of_nonneg_left hl.le1 hx) (hl.le1.trans hl.le2) hx (mul_nonneg hx hy)
    exact lt_of_le_of_lt (hcube.trans (le_abs_self _)) hd
  · left
    rw [if_neg hd] at hc
    rw [hc]
    ring

/-! ## The results for a cloud -/

theorem forLoop_zip {σ α : Type} (body : σ → Nat × α → Out σ) (f : Nat → α) : ∀ (xs : List α) (a : Nat) (s : σ),
    (∀ i (x : α), xs[i]? = some x → f (a + i) = x) →
    forLoop ((List.range' a xs.length).zip xs) s body = forLoop (List.range' a xs.length) s fun s i => body s (i, f i)
  | [], _, _, _ => rfl
  | x :: xs, a, s, h => by
    rw [List.length_cons, List.range'_succ, List.zip_cons_cons]
    have h0 : f a = x := h 0 x rfl
    show (body s (a, x)).bind _ = (body s (a, f a)).bind _
    rw [h0]
    cases body s (a, x) with
    | error e => rfl
    | ok s' =>
      exact forLoop_zip body f xs (a + 1) s' fun i y hy => by
        rw [Nat.add_assoc, Nat.add_comm 1 i]; exact h (i + 1) y hy

/-- The buffer of the neighbors has their positions. -/
theorem neighbor_positions {l : PointLayout} (hl : Solid l) (hpos : position3D ∈ l.attributes.map Member.definition)
    (near : List (P3 F64)) (hn : ∀ p ∈ near, Coords IsF64 p) :
    ∃ kb, neighborBuffer l near = .ok kb ∧ Normals.positions kb = .ok near := by
  obtain ⟨m, hm, hd⟩ := List.mem_map.1 hpos
  have hms : m.size = 24 := by show m.definition.datatype.size = _; rw [hd]; rfl
  have hty : m.datatype = .vec3f64 := by show m.definition.datatype = _; rw [hd]; rfl
  let zero : P3 F64 := ⟨Flt.zero .f64, Flt.zero .f64, Flt.zero .f64⟩
  let g : Nat → Bytes := fun i => Reprojection.writeVec3F64 (near[i]?.getD zero)
  have hg : ∀ i, (g i).length = m.size := fun i => (length_write _).trans hms.symm
  let F : Nat → Bytes → Bytes := fun i r => overwrite r m.offset (g i)
  have hF : ∀ i r, r.length = l.size → (F i r).length = l.size := by
    intro i r hr
    have hi := hl.inside m hm
    have := hg i
    show (overwrite r m.offset _).length = _
    rw [length_overwrite (by omega), hr]
  let rs : List Bytes := List.replicate near.length (List.replicate l.size 0)
  have h : AllLen l.size rs := by
    intro r hr
    rw [List.eq_of_mem_replicate hr, List.length_replicate]
  have hstart : (HashMapBuffer.newFromLayout l).resize near.length = (HoldsRecords.ofRecords l rs : HashMapBuffer) :=
    new_resized (β := HashMapBuffer) hl near.length
  have hloop := modify_loop (HoldsRecords.ofRecords l : List Bytes → HashMapBuffer) (AllLen l.size) F
    (body := fun b i => neighborStep b (i, near[i]?.getD zero)) 0 rs.length 0 rs h (by
      intro k ys hk hy hlen
      rw [Nat.zero_add]
      have hky : k < ys.length := by omega
      have hr : ys[k]? = some ys[k] := List.getElem?_eq_getElem hky
      have hrl : (ys[k]).length = l.size := hy.getElem hr
      constructor
      · have hs := HoldsRecords.step_eq (β := HashMapBuffer) hl hy (.setAttribute m.definition k (g k)) (hg k)
        unfold Op.stepRecords at hs
        rw [if_pos ⟨List.mem_map_of_mem hm, hky⟩] at hs
        unfold neighborStep
        rw [show AttributeView.new (HoldsRecords.ofRecords l ys : HashMapBuffer) .vec3f64 position3D = .ok ⟨.vec3f64, m⟩ from
          (C62_attribute_view_checks _ l hl _ (HoldsRecords.shows hl hy) .vec3f64 position3D).1 rfl m hm hd]
        refine Eq.trans hs ?_
        simp only [Except.map, Op.onRecords, find_def_mem hl hm]
        rfl
      · intro r hrm
        rw [List.modify_eq_set_getElem?, hr] at hrm
        exact (hy.set (hF k _ hrl) k) r hrm)
  refine ⟨HoldsRecords.ofRecords l (rs.mapIdx F), ?_, ?_⟩
  · unfold neighborBuffer
    dsimp only
    rw [hstart, List.range_eq_range', forLoop_zip neighborStep (fun i => near[i]?.getD zero) near 0 _ (by
      intro i x hx
      rw [Nat.zero_add, hx]
      rfl)]
    have hrl : rs.length = near.length := List.length_replicate
    rw [hrl] at hloop
    refine Eq.trans hloop ?_
    congr 2
    apply List.ext_getElem (by simp)
    intro i h1 h2
    simp [rs] at h1
    simp [h1]
  · have hall : AllLen l.size (rs.mapIdx F) := by
      intro r hr
      rw [List.mem_mapIdx] at hr
      obtain ⟨i, hi, rfl⟩ := hr
      exact hF i _ (h _ (List.getElem_mem hi))
    have hshow := HoldsRecords.shows (β := HashMapBuffer) hl hall
    rw [(positions_normals hl hshow hpos).1]
    congr 1
    unfold positionsOf
    obtain ⟨xs, hx, _⟩ := column_some hl hshow hm
    have hx' := column_all hx
    obtain ⟨c1, c2⟩ := column_get hx
    rw [hd] at hx'
    rw [← hx']
    apply List.ext_getElem?
    intro i
    rw [List.getElem?_map, ← c2 i]
    unfold value?
    rw [List.getElem?_map, List.getElem?_mapIdx]
    by_cases hi : i < near.length
    · have hri : rs[i]? = some (List.replicate l.size 0) := by
        rw [List.getElem?_replicate, if_pos hi]
      rw [hri, List.getElem?_eq_getElem hi]
      show Option.map positionOf ((pointOf l (F i (List.replicate l.size 0))).get m.definition) = _
      rw [pointOf_get, find_def_mem hl hm, Option.map_some, Option.map_some]
      congr 1
      show positionOf (window (overwrite (List.replicate l.size 0) m.offset (g i)) m.offset m.size) = _
      rw [window_overwrite hl List.length_replicate hm (hg i) hm, if_pos rfl]
      show positionOf (Reprojection.writeVec3F64 (near[i]?.getD zero)) = _
      rw [List.getElem?_eq_getElem hi]
      exact (write_position _ (hn _ (List.getElem_mem hi))).2
    · have hri : rs[i]? = none := by
        rw [List.getElem?_eq_none_iff, List.length_replicate]; omega
      rw [hri, List.getElem?_eq_none (by omega)]
      rfl


section
variable {β : Type} [BorrowedBuffer β] (b : β) (l : PointLayout) (hl : Solid l) (ps : List Point) (h : ShowsPoints b l ps)
  (trig : Trig F64) (nearests : List (P3 F64) → P3 F64 → Nat → List (P3 F64)) (k : Nat)
include hl h

/-- C74: `compute_normals` returns, for every point in order, the estimate for the positions that the k-d tree returns for
    this point. It panics if one of the estimates does. -/
theorem C74_results (hpos : position3D ∈ l.attributes.map Member.definition) (h3 : 3 ≤ ps.length) (hk : 3 ≤ k)
    (hnear : ∀ p ∈ positionsOf ps, ∀ q ∈ nearests (positionsOf ps) p k, q ∈ positionsOf ps) :
    computeNormals trig nearests b k =
      (positionsOf ps).mapM fun p => normalEstimation trig (nearests (positionsOf ps) p k) := by
  unfold computeNormals
  rw [assertThat_true (by rw [h.len_eq]; exact decide_eq_true h3), assertThat_true (decide_eq_true hk),
    (positions_normals hl h hpos).1]
  show ((positionsOf ps).mapM fun p => do
    let kb ← neighborBuffer (layout b) (nearests (positionsOf ps) p k)
    let points ← Normals.positions kb
    normalEstimation trig points) = _
  have hf64 : ∀ q ∈ positionsOf ps, Coords IsF64 q := by
    intro q hq
    obtain ⟨v, _, rfl⟩ := List.mem_map.1 hq
    exact position_f64 v
  have key : ∀ qs : List (P3 F64), (∀ p ∈ qs, p ∈ positionsOf ps) → (qs.mapM fun p => do
      let kb ← neighborBuffer (layout b) (nearests (positionsOf ps) p k)
      let points ← Normals.positions kb
      normalEstimation trig points) =
      qs.mapM fun p => normalEstimation trig (nearests (positionsOf ps) p k) := by
    intro qs
    induction qs with
    | nil => intro _; rfl
    | cons q qs ih =>
      intro hq
      rw [List.mapM_cons, List.mapM_cons, ih fun p hp => hq p (by simp [hp])]
      obtain ⟨kb, h1, h2⟩ := neighbor_positions hl hpos (nearests (positionsOf ps) q k) fun p hp =>
        hf64 p (hnear q (hq q (by simp)) p hp)
      rw [h.layout_eq, h1]
      show ((Normals.positions kb >>= normalEstimation trig) >>= _) = _
      rw [h2]
      rfl
  exact key _ fun _ hp => hp

/-- C74: with fewer than three points, fewer than three neighbors, or without `f64` positions, `compute_normals` panics. -/
theorem C74_panics (hbad : ps.length < 3 ∨ k < 3 ∨ position3D ∉ l.attributes.map Member.definition) :
    computeNormals trig nearests b k = panicked := by
  unfold computeNormals
  by_cases h1 : 3 ≤ ps.length
  · rw [assertThat_true (by rw [h.len_eq]; exact decide_eq_true h1)]
    by_cases h2 : 3 ≤ k
    · rw [assertThat_true (decide_eq_true h2)]
      unfold Normals.positions
      rw [(C62_attribute_view_checks b l hl ps h .vec3f64 position3D).2 fun hc => by
        rcases hbad with hb | hb | hb
        · omega
        · omega
        · exact hb hc.2]
      rfl
    · rw [assertThat_false (decide_eq_false h2)]
      rfl
  · rw [assertThat_false (by rw [h.len_eq]; exact decide_eq_false h1)]
    rfl

end

/-- C74: fewer than three usable neighbors make `compute_normals` panic: then the covariance matrix is refused. -/
theorem C74_few_panics {α : Type} [Number α] (trig : Trig α) (ps : List (P3 α))
    (h : ps.length < 3 ∨ isDense ps = false ∧ (ps.filter finitePoint).length < 3) :
    normalEstimation trig ps = panicked := by
  unfold normalEstimation
  have key : covarianceMatrix ps = panicked ∨ covarianceMatrix ps = .error .err := by
    unfold covarianceMatrix
    cases hc : centroid ps with
    | error e =>
      left
      unfold centroid at hc
      split at hc
      · cases hc; rfl
      · split at hc <;> cases hc
    | ok c =>
      right
      simp only [bind, Except.bind]
      have hcount : ∀ (qs : List (P3 α)) (acc : Upper α × Nat),
          (qs.foldl (covarianceStep c) acc).2 = acc.2 + (qs.filter finitePoint).length := by
        intro qs
        induction qs with
        | nil => intro acc; rfl
        | cons q qs ih =>
          intro acc
          rw [List.foldl_cons, ih, List.filter_cons]
          unfold covarianceStep
          cases finitePoint q
          · rfl
          · simp only [if_true, List.length_cons]; omega
      have hle : (ps.filter finitePoint).length ≤ ps.length := List.length_filter_le _ _
      cases hd : isDense ps
      · simp only [Bool.false_eq_true, if_false, hcount, Nat.zero_add]
        rw [bailIf, if_pos (by
          simp only [decide_eq_true_eq]
          rcases h with h | h
          · omega
          · exact h.2)]
      · rw [hd] at h
        simp only [if_true]
        rw [bailIf, if_pos (by simpa using h)]
  rcases key with he | he <;> rw [he] <;> rfl

/-- C74: an infinite coordinate makes the estimate panic, unless some coordinate is a NaN (then the point is skipped): the
    covariance matrix has NaNs, which `solve_polynomial` cannot sort. -/
theorem C74_infinite_panics (trig : Trig F64) (ps : List (P3 F64)) (hn : ∀ p ∈ ps, ¬SomeNaN p)
    (h : ∃ p ∈ ps, p.x.isInf = true ∨ p.y.isInf = true ∨ p.z.isInf = true) : normalEstimation trig ps = panicked := by
  refine estimation_infinite trig ?_ h
  unfold isDense
  rw [List.all_eq_true]
  intro p hp
  have := hn p hp
  unfold SomeNaN at this
  show (!(Flt.isNaN p.x || Flt.isNaN p.y || Flt.isNaN p.z)) = true
  rw [Bool.not_eq_true', Bool.or_eq_false_iff, Bool.or_eq_false_iff]
  simpa [and_assoc] using this

/-! ## Where the estimate is wrong -/

namespace NormalExample

/-- The corners of an octahedron. -/
noncomputable def octahedron (a : ℝ) : List (P3 ℝ) :=
  [⟨a, 0, 0⟩, ⟨-a, 0, 0⟩, ⟨0, a, 0⟩, ⟨0, -a, 0⟩, ⟨0, 0, a⟩, ⟨0, 0, -a⟩]

theorem octahedron_mean (a : ℝ) : meanPoint (octahedron a) = ⟨0, 0, 0⟩ := by
  simp [meanPoint, meanOf, octahedron]

theorem octahedron_spread (a : ℝ) (m : P3 ℝ) : spread (octahedron a) m = 2 * a ^ 2 * scalar m m := by
  unfold spread
  rw [octahedron_mean]
  simp only [octahedron, List.map_cons, List.map_nil, List.sum_cons, List.sum_nil, scalar, minus]
  ring

theorem octahedron_total (a : ℝ) : totalSpread (octahedron a) = 6 * a ^ 2 := by
  unfold totalSpread
  rw [octahedron_mean]
  simp only [octahedron, List.map_cons, List.map_nil, List.sum_cons, List.sum_nil, scalar, minus]
  ring

/-- The surface variation of an octahedron is 1/3, the largest possible. -/
theorem octahedron_variation {a v : ℝ} (ha : a ≠ 0) (h : SurfaceVariation (octahedron a) v) : v = 1 / 3 := by
  obtain ⟨n, ⟨hn, _⟩, e⟩ := h
  rw [octahedron_total, octahedron_spread] at e
  have hp := scalar_pos hn
  have : v * (6 * (a ^ 2 * scalar n n)) = 1 / 3 * (6 * (a ^ 2 * scalar n n)) := by linarith
  exact mul_right_cancel₀ (by positivity) this

/-- Eight points: ±(1, 1, 0), ±(1, 0, 0), ±(0, 1, 0), ±(0, 0, 2). The best normals are the multiples of (1, -1, 0). -/
noncomputable def tilted : List (P3 ℝ) :=
  [⟨1, 1, 0⟩, ⟨-1, -1, 0⟩, ⟨1, 0, 0⟩, ⟨-1, 0, 0⟩, ⟨0, 1, 0⟩, ⟨0, -1, 0⟩, ⟨0, 0, 2⟩, ⟨0, 0, -2⟩]

theorem tilted_mean : meanPoint tilted = ⟨0, 0, 0⟩ := by
  simp [meanPoint, meanOf, tilted]

theorem tilted_scatter : Normals.scatter (meanPoint tilted) tilted = ⟨⟨4, 2, 0⟩, ⟨2, 4, 0⟩, ⟨0, 0, 8⟩⟩ := by
  rw [tilted_mean]
  simp only [Normals.scatter, tilted, total, List.map_cons, List.map_nil, List.sum_cons, List.sum_nil, Mat3.mk.injEq,
    P3.mk.injEq]
  norm_num

theorem tilted_spread (m : P3 ℝ) : spread tilted m = 4 * m.x ^ 2 + 4 * m.x * m.y + 4 * m.y ^ 2 + 8 * m.z ^ 2 := by
  rw [spread_eq, tilted_scatter]
  simp only [scalar, Normals.apply]
  ring

end NormalExample

open NormalExample

/-- C74 does not hold: the normal need not be the one of a plane that fits best, even in exact arithmetic. `eigen_3x3`
    subtracts the eigenvalue from a copy of the diagonal, so that the normal is computed from the covariance matrix
    itself. -/
theorem C74_normal_violated : ∃ n c, normalEstimation exactTrig tilted = .ok (n, c) ∧ ¬BestNormal tilted n ∧
    BestNormal tilted ⟨1, -1, 0⟩ := by
  obtain ⟨n, c, l, h1, _, hn, _⟩ := estimate_real (ps := tilted) (by simp [tilted])
  refine ⟨n, c, h1, ?_, ?_⟩
  · obtain ⟨hmem, hmax⟩ := largest_real (scaled (Normals.scatter (meanPoint tilted) tilted)
      (largestEntry (Normals.scatter (meanPoint tilted) tilted)))
    have hs : largestEntry (Normals.scatter (meanPoint tilted) tilted) = 8 := by
      rw [largest_diagonal, tilted_spread, tilted_spread, tilted_spread]
      norm_num
    rw [← hn, crosses_scaled, hs, tilted_scatter] at hmem hmax
    simp only [crosses, Vec3.cross, Arith.mul, Arith.sub, List.map_cons, List.map_nil, times, List.mem_cons,
      List.not_mem_nil, or_false, forall_eq_or_imp, forall_eq] at hmem hmax
    rintro ⟨_, hb⟩
    have hb := hb ⟨1, -1, 0⟩
    rw [tilted_spread, tilted_spread] at hb
    rcases hmem with e | e | e
    · have := hmax.2.1
      rw [e] at this
      simp only [scalar] at this
      norm_num at this
    · rw [e] at hb
      simp only [scalar] at hb
      norm_num at hb
    · rw [e] at hb
      simp only [scalar] at hb
      norm_num at hb
  · refine ⟨by simp, fun m => ?_⟩
    rw [tilted_spread, tilted_spread]
    simp only [scalar]
    nlinarith [sq_nonneg (m.x + m.y), sq_nonneg m.z]

/-- C74 does not hold: the curvature can exceed the surface variation, and even 1. It depends on the size of the cloud,
    because `eigen_3x3` multiplies an eigenvalue of the unscaled matrix by the scale. -/
theorem C74_curvature_violated : ∃ n, normalEstimation exactTrig (octahedron 3) = .ok (n, 6) ∧
    SurfaceVariation (octahedron 3) (1 / 3) := by
  obtain ⟨n, c, v, h1, h2, h3⟩ := C74_curvature_partial (octahedron 3) (by simp [octahedron]) (by
    rw [octahedron_total]; norm_num)
  have hv := octahedron_variation (by norm_num) h2
  subst hv
  refine ⟨n, ?_, h2⟩
  rcases h3 with h3 | h3
  · have : axisSpread (octahedron 3) = 18 := by
      unfold axisSpread
      rw [octahedron_spread, octahedron_spread, octahedron_spread]
      simp only [scalar]
      norm_num
    rw [this] at h3
    rw [h1, h3]
    norm_num
  · exfalso
    rw [octahedron_total] at h3
    norm_num at h3

/-- C74 does not hold: a small cloud has curvature 0 however curved it is, because `solve_polynomial` compares the
    determinant of the unscaled matrix with an absolute bound. -/
theorem C74_small_violated (trig : Trig ℝ) : ∃ n, normalEstimation trig (octahedron (1 / 1024)) = .ok (n, 0) ∧
    ∀ v, SurfaceVariation (octahedron (1 / 1024)) v → v = 1 / 3 := by
  have hv : ∀ v, SurfaceVariation (octahedron (1 / 1024)) v → v = 1 / 3 := fun v hv =>
    octahedron_variation (by norm_num) hv
  have h := solve_flat trig (a := Normals.scatter (meanPoint (octahedron (1 / 1024))) (octahedron (1 / 1024))) (by
    rw [octahedron_mean]
    simp only [coefficient0, Normals.scatter, octahedron, total, List.map_cons, List.map_nil, List.sum_cons,
      List.sum_nil, Arith.add, Arith.sub, Arith.mul, Number.ofInt]
    norm_num [abs_lt])
  exact ⟨_, (estimation_real trig (by simp [octahedron])).trans h, hv⟩

/-- C74: the surface variation is at most 1/3. -/
theorem variation_le_third {ps : List (P3 ℝ)} {v : ℝ} (h0 : totalSpread ps ≠ 0) (h : SurfaceVariation ps v) : v ≤ 1 / 3 := by
  obtain ⟨n, ⟨hn, hb⟩, e⟩ := h
  have hp := scalar_pos hn
  have ht : 0 < totalSpread ps := lt_of_le_of_ne (total_nonneg fun _ _ => scalar_self _) (Ne.symm h0)
  have h1 := hb ⟨1, 0, 0⟩
  have h2 := hb ⟨0, 1, 0⟩
  have h3 := hb ⟨0, 0, 1⟩
  have hsum : spread ps ⟨1, 0, 0⟩ + spread ps ⟨0, 1, 0⟩ + spread ps ⟨0, 0, 1⟩ = totalSpread ps := by
    rw [spread_eq, spread_eq, spread_eq, total_eq]
    simp only [scalar, Normals.apply]
    ring
  have s1 : scalar (⟨1, 0, 0⟩ : P3 ℝ) ⟨1, 0, 0⟩ = 1 := by simp [scalar]
  have s2 : scalar (⟨0, 1, 0⟩ : P3 ℝ) ⟨0, 1, 0⟩ = 1 := by simp [scalar]
  have s3 : scalar (⟨0, 0, 1⟩ : P3 ℝ) ⟨0, 0, 1⟩ = 1 := by simp [scalar]
  rw [s1] at h1
  rw [s2] at h2
  rw [s3] at h3
  have h4 : 3 * spread ps n ≤ totalSpread ps * scalar n n := by rw [← hsum]; linarith
  have h5 : v * (totalSpread ps * scalar n n) ≤ 1 / 3 * (totalSpread ps * scalar n n) := by linarith
  exact le_of_mul_le_mul_right h5 (mul_pos ht hp)

/-! ## Examples -/

/-- The points of `tilted` are not on a line: C74 bounds the error of their normal. -/
theorem tilted_not_collinear : ¬Collinear tilted := by
  rintro ⟨a, v, h⟩
  simp only [tilted, List.mem_cons, List.not_mem_nil, or_false, forall_eq_or_imp, forall_eq, P3.mk.injEq] at h
  obtain ⟨_, _, ⟨t, tx, ty, tz⟩, ⟨u, ux, uy, uz⟩, ⟨w, wx, wy, wz⟩, _⟩ := h
  have e1 : (t - u) * v.x = 2 := by linarith
  have e2 : (t - u) * v.y = 0 := by linarith
  have e3 : (w - u) * v.y = 1 := by linarith
  have hy : v.y ≠ 0 := by rintro hy; rw [hy] at e3; simp at e3
  have : t - u = 0 := (mul_eq_zero.1 e2).resolve_right hy
  rw [this] at e1
  simp at e1

example : ∃ n c, normalEstimation exactTrig tilted = .ok (n, c) ∧ n ≠ ⟨0, 0, 0⟩ ∧
    ∀ m, spread tilted n * scalar m m ≤ √3 * (spread tilted m * scalar n n) :=
  C74_normal_partial tilted (by simp [tilted]) tilted_not_collinear

/-- Three points in the plane `x + y + z = 1`. -/
example : ∃ n, normalEstimation exactTrig [⟨1, 0, 0⟩, ⟨0, 1, 0⟩, ⟨0, 0, 1⟩] = .ok (n, 0) ∧
    scalar n (minus ⟨1, 0, 0⟩ ⟨0, 1, 0⟩) = 0 ∧ scalar n (minus ⟨1, 0, 0⟩ ⟨0, 0, 1⟩) = 0 := by
  obtain ⟨n, h1, h2, _⟩ := C74_plane_partial exactTrig [⟨1, 0, 0⟩, ⟨0, 1, 0⟩, ⟨0, 0, 1⟩] (by simp)
    ⟨⟨1, 1, 1⟩, 1, by simp, by simp [scalar]⟩ (by
      rintro ⟨a, v, h⟩
      simp only [List.mem_cons, List.not_mem_nil, or_false, forall_eq_or_imp, forall_eq, P3.mk.injEq] at h
      obtain ⟨⟨t, tx, ty, tz⟩, ⟨u, ux, uy, uz⟩, ⟨w, wx, wy, wz⟩⟩ := h
      have e1 : (t - u) * v.x = 1 := by linarith
      have e2 : (t - u) * v.z = 0 := by linarith
      have e3 : (w - u) * v.z = 1 := by linarith
      have hz : v.z ≠ 0 := by rintro hz; rw [hz] at e3; simp at e3
      have : t - u = 0 := (mul_eq_zero.1 e2).resolve_right hz
      rw [this] at e1
      simp at e1)
  exact ⟨n, h1, h2 _ (by simp) _ (by simp), h2 _ (by simp) _ (by simp)⟩

open CentroidExample RansacExample

/-- An infinite coordinate. -/
example (trig : Trig F64) : normalEstimation trig [farPoint, wholePoint 1 0 0, wholePoint 0 1 0] = panicked :=
  C74_infinite_panics trig _ (by unfold SomeNaN; decide +kernel) ⟨farPoint, by simp, .inl (by decide +kernel)⟩

/-- A NaN and only two other points. -/
example (trig : Trig F64) : normalEstimation trig [noPoint, wholePoint 1 0 0, wholePoint 0 1 0] = panicked :=
  C74_few_panics trig _ (.inr (by decide +kernel))

theorem corner_shows : ShowsPoints (cloud [wholePoint 1 0 0, wholePoint 0 1 0, wholePoint 0 0 1]) positionLayout
    (([wholePoint 1 0 0, wholePoint 0 1 0, wholePoint 0 0 1].map Reprojection.writeVec3F64).map (pointOf positionLayout)) :=
  interleaved_shows_points positionLayout_solid (by unfold AllLen; decide +kernel)

theorem corner_positions : positionsOf (([wholePoint 1 0 0, wholePoint 0 1 0, wholePoint 0 0 1].map
    Reprojection.writeVec3F64).map (pointOf positionLayout)) =
      [wholePoint 1 0 0, wholePoint 0 1 0, wholePoint 0 0 1] := by decide +kernel

/-- C74 for a cloud of three points, each of which has the three points as neighbors. -/
example (trig : Trig F64) :
    computeNormals trig (fun ps _ k => ps.take k) (cloud [wholePoint 1 0 0, wholePoint 0 1 0, wholePoint 0 0 1]) 4 =
      [wholePoint 1 0 0, wholePoint 0 1 0, wholePoint 0 0 1].mapM fun _ =>
        normalEstimation trig [wholePoint 1 0 0, wholePoint 0 1 0, wholePoint 0 0 1] := by
  have h := C74_results _ positionLayout positionLayout_solid _ corner_shows trig (fun ps _ k => ps.take k) 4
    (by decide +kernel) (by decide) (by decide) fun _ _ q hq => List.mem_of_mem_take hq
  rw [corner_positions] at h
  exact h

/-- C74: too few neighbors are asked for. -/
example (trig : Trig F64) :
    computeNormals trig (fun ps _ k => ps.take k) (cloud [wholePoint 1 0 0, wholePoint 0 1 0, wholePoint 0 0 1]) 2 =
      panicked :=
  C74_panics _ positionLayout positionLayout_solid _ corner_shows trig _ 2 (.inr (.inl (by decide)))

end Pasture.Props
