import Verif.Spec.RansacSample
import Verif.Lemmas.RansacSample
import Verif.Props.Ransac

/-!
# The points a RANSAC model was made from: C101
-/

namespace Pasture.Props

open Spec Ransac BorrowedBuffer

theorem two_le_length {is : List Nat} {i j : Nat} (hne : i ≠ j) (hi : i ∈ is) (hj : j ∈ is) : 2 ≤ is.length := by
  match is with
  | [] => cases hi
  | [x] => exact absurd ((List.mem_singleton.1 hi).trans (List.mem_singleton.1 hj).symm) hne
  | _ :: _ :: _ => simp

/-- A line through two points that have a distance holds both. -/
theorem line_holds_sample {positions : List (P3 F64)} {thr : F64} (hthr : Flt.lt (Flt.zero .f64) thr = true)
    {m : Line F64 × List Nat} (hm : LineModel positions thr m) (hs : SpansLine m.1) :
    LineHoldsSample positions m ∧ 2 ≤ m.1.ranking := by
  obtain ⟨i, j, hne, hi, hj⟩ := hm.sample
  have h1 : i ∈ m.2 := (hm.inliers.exact i).2 ⟨_, hi, (distance_first f64_room.1 hs.1 hs.2).lt f64_room.1 hthr⟩
  have h2 : j ∈ m.2 := (hm.inliers.exact j).2 ⟨_, hj, (distance_second f64_room.1 f64_room.2 hs.1 hs.2).lt f64_room.1 hthr⟩
  refine ⟨⟨i, j, hne, hi, hj, h1, h2⟩, ?_⟩
  rw [hm.ranking]
  exact two_le_length hne h1 h2

/-- A plane holds the first of its points. -/
theorem plane_holds_first {positions : List (P3 F64)} {thr : F64} (hthr : Flt.lt (Flt.zero .f64) thr = true)
    {m : Plane F64 × List Nat} (hm : PlaneModel positions thr m) (hs : SpansPlane m.1) :
    ∃ (i j k : Nat) (p q r : P3 F64), i ≠ j ∧ i ≠ k ∧ j ≠ k ∧ positions[i]? = some p ∧ positions[j]? = some q ∧
      positions[k]? = some r ∧ { m.1 with ranking := 0 } = planeThrough p q r ∧ i ∈ m.2 := by
  obtain ⟨i, j, k, p, q, r, h1, h2, h3, hp, hq, hr, he⟩ := hm.sample
  refine ⟨i, j, k, p, q, r, h1, h2, h3, hp, hq, hr, he, (hm.inliers.exact i).2 ⟨p, hp, ?_⟩⟩
  have ea : m.1.a = (planeThrough p q r).a := by rw [← he]
  have eb : m.1.b = (planeThrough p q r).b := by rw [← he]
  have ec : m.1.c = (planeThrough p q r).c := by rw [← he]
  have ed : m.1.d = (planeThrough p q r).d := by rw [← he]
  refine (distance_corner f64_room.1 ?_ hs.1 hs.2.1 hs.2.2).lt f64_room.1 hthr
  rw [ed, ea, eb, ec]
  rfl

/-- A line through one point only, or two points at the same position, holds nothing. -/
theorem line_without_direction {positions : List (P3 F64)} {thr : F64} {m : Line F64 × List Nat}
    (hm : LineModel positions thr m) (h : m.1.first = m.1.second) : m.2 = [] := by
  rw [List.eq_nil_iff_forall_not_mem]
  intro i hi
  obtain ⟨p, _, hlt⟩ := (hm.inliers.exact i).1 hi
  rw [Flt.nan_lt (distance_point_line_nan f64_room.1 h p)] at hlt
  cases hlt

/-- A plane two of whose three points are at the same position holds nothing. -/
theorem plane_without_normal {positions : List (P3 F64)} {thr : F64} {m : Plane F64 × List Nat}
    (hm : PlaneModel positions thr m) {p q r : P3 F64} (he : { m.1 with ranking := 0 } = planeThrough p q r)
    (h : p = q ∨ p = r ∨ q = r) : m.2 = [] := by
  have hn : Nowhere (Vec3.cross (Vec3.sub q p) (Vec3.sub r p)) := by
    rcases h with rfl | rfl | rfl
    · exact nowhere_cross_left f64_room.1 (nowhere_sub _)
    · exact nowhere_cross_right f64_room.1 (nowhere_sub _)
    · exact nowhere_cross_self _
  have hm1 : m.1 = { planeThrough p q r with ranking := m.1.ranking } := by
    rw [← he]
  rw [List.eq_nil_iff_forall_not_mem]
  intro i hi
  obtain ⟨x, _, hlt⟩ := (hm.inliers.exact i).1 hi
  have hnan : (distancePointPlane x m.1).isNaN = true := by
    rw [hm1]
    exact distance_point_plane_nan f64_room.1 hn _ x
  rw [Flt.nan_lt hnan] at hlt
  cases hlt

section
variable {β : Type} [BorrowedBuffer β] (b : β) (l : PointLayout) (hl : Solid l) (ps : List Point) (h : ShowsPoints b l ps)
  (hpos : position3D ∈ l.attributes.map Member.definition)
include hl h hpos

/-- C101, for lines: both points of the returned line are inliers, if they have a distance. If the points of the line of
    any iteration have one, the returned line has at least two inliers. -/
theorem C101_line_partial (h2 : 2 ≤ ps.length) (threshold : F64) (hthr : Flt.lt (Flt.zero .f64) threshold = true)
    (draws : List (List Nat)) (hne : draws ≠ []) (r : Out (Line F64 × List Nat))
    (hr : ransacLineSerial b threshold draws = some r) :
    ∃ best, r = .ok best ∧ (SpansLine best.1 → LineHoldsSample (positionsOf ps) best) ∧
      ((∃ ds ∈ draws, ∃ m, generateLineModel b threshold ds = some (.ok m) ∧ SpansLine m.1) → 2 ≤ best.1.ranking ∧ 2 ≤ best.2.length) := by
  obtain ⟨models, best, e, hb, hf⟩ := C59_line_serial b l hl ps h hpos h2 threshold draws hne r hr
  have hall : ∀ {ds : List (List Nat)} {ms : List (Line F64 × List Nat)},
      List.Forall₂ (fun ds m => generateLineModel b threshold ds = some (.ok m) ∧ LineModel (positionsOf ps) threshold m) ds ms →
      (∀ m ∈ ms, LineModel (positionsOf ps) threshold m) ∧ ∀ d ∈ ds, ∃ m ∈ ms, generateLineModel b threshold d = some (.ok m) := by
    intro ds ms hfa
    induction hfa with
    | nil => exact ⟨by simp, by simp⟩
    | cons h1 _ ih =>
      refine ⟨?_, ?_⟩
      · intro m hm
        rcases List.mem_cons.1 hm with rfl | hm
        · exact h1.2
        · exact ih.1 m hm
      · intro d hd
        rcases List.mem_cons.1 hd with rfl | hd
        · exact ⟨_, List.mem_cons_self, h1.1⟩
        · obtain ⟨m, hm, e⟩ := ih.2 d hd
          exact ⟨m, List.mem_cons_of_mem _ hm, e⟩
  obtain ⟨hmod, hgen⟩ := hall hf
  refine ⟨best, e, fun hs => (line_holds_sample hthr (hmod best hb.1) hs).1, ?_⟩
  rintro ⟨ds, hds, m, hm, hs⟩
  obtain ⟨m', hm', e'⟩ := hgen ds hds
  rw [hm] at e'
  cases Except.ok.inj (Option.some.inj e')
  have h3 := (line_holds_sample hthr (hmod m hm') hs).2
  have h4 := hb.2 m hm'
  rw [(hmod m hm').ranking] at h3
  rw [(hmod best hb.1).ranking]
  omega

/-- C101, for planes: the first of the three points of the returned plane is an inlier, if the plane has a normal. -/
theorem C101_plane_partial (h3 : 3 ≤ ps.length) (threshold : F64) (hthr : Flt.lt (Flt.zero .f64) threshold = true)
    (draws : List (List Nat)) (hne : draws ≠ []) (r : Out (Plane F64 × List Nat))
    (hr : ransacPlaneSerial b threshold draws = some r) :
    ∃ best, r = .ok best ∧ (SpansPlane best.1 → ∃ (i j k : Nat) (p q r : P3 F64), i ≠ j ∧ i ≠ k ∧ j ≠ k ∧
      (positionsOf ps)[i]? = some p ∧ (positionsOf ps)[j]? = some q ∧ (positionsOf ps)[k]? = some r ∧
      { best.1 with ranking := 0 } = planeThrough p q r ∧ i ∈ best.2) := by
  obtain ⟨models, best, e, hb, hf⟩ := C59_plane_serial b l hl ps h hpos h3 threshold draws hne r hr
  have hall : ∀ {ds : List (List Nat)} {ms : List (Plane F64 × List Nat)},
      List.Forall₂ (fun ds m => generatePlaneModel b threshold ds = some (.ok m) ∧ PlaneModel (positionsOf ps) threshold m) ds ms →
      ∀ m ∈ ms, PlaneModel (positionsOf ps) threshold m := by
    intro ds ms hfa
    induction hfa with
    | nil => simp
    | cons h1 _ ih =>
      intro m hm
      rcases List.mem_cons.1 hm with rfl | hm
      · exact h1.2
      · exact ih m hm
  exact ⟨best, e, fun hs => plane_holds_first hthr (hall hf best hb.1) hs⟩

/-- The claim fails for points at the same position: if all points of a buffer are at one position, no line and no plane
    has an inlier, whatever the threshold, although every point lies on every one of them. -/
theorem C101_duplicates_violated (p : P3 F64) (hp : ∀ x ∈ positionsOf ps, x = p) (threshold : F64) (draws : List (List Nat))
    (hne : draws ≠ []) :
    (2 ≤ ps.length → ∀ r, ransacLineSerial b threshold draws = some r → ∃ best, r = .ok best ∧ best.1.ranking = 0 ∧ best.2 = []) ∧
    (3 ≤ ps.length → ∀ r, ransacPlaneSerial b threshold draws = some r → ∃ best, r = .ok best ∧ best.1.ranking = 0 ∧ best.2 = []) := by
  have at_p : ∀ {i : Nat} {x : P3 F64}, (positionsOf ps)[i]? = some x → x = p := fun hx => hp _ (List.mem_of_getElem? hx)
  refine ⟨?_, ?_⟩
  · intro h2 r hr
    obtain ⟨models, best, e, hb, hf⟩ := C59_line_serial b l hl ps h hpos h2 threshold draws hne r hr
    obtain ⟨n, hn⟩ := List.mem_iff_get.1 hb.1
    have hm : LineModel (positionsOf ps) threshold best := by
      have := (List.forall₂_iff_get.1 hf).2 n (by rw [(List.forall₂_iff_get.1 hf).1]; exact n.2) n.2
      rw [← hn]
      exact this.2
    obtain ⟨i, j, _, hi, hj⟩ := hm.sample
    have h0 := line_without_direction hm ((at_p hi).trans (at_p hj).symm)
    exact ⟨best, e, by rw [hm.ranking, h0]; rfl, h0⟩
  · intro h3 r hr
    obtain ⟨models, best, e, hb, hf⟩ := C59_plane_serial b l hl ps h hpos h3 threshold draws hne r hr
    obtain ⟨n, hn⟩ := List.mem_iff_get.1 hb.1
    have hm : PlaneModel (positionsOf ps) threshold best := by
      have := (List.forall₂_iff_get.1 hf).2 n (by rw [(List.forall₂_iff_get.1 hf).1]; exact n.2) n.2
      rw [← hn]
      exact this.2
    obtain ⟨i, j, k, x, y, z, _, _, _, hi, hj, hk, he⟩ := hm.sample
    have h0 := plane_without_normal hm he (.inl ((at_p hi).trans (at_p hj).symm))
    exact ⟨best, e, by rw [hm.ranking, h0]; rfl, h0⟩

end

namespace RansacExample

def three : List Bytes :=
  [positionRecord 825491 1073044 470631, positionRecord 897650 988234 476028, positionRecord 867401 1001003 393365]

def exBuffer3 : VectorBuffer := Interleaved.ofRecords positionLayout three

/-- 2^-32. -/
def tiny : F64 := (Flt.ofInt .f64 1).div (Flt.ofInt .f64 4294967296)

theorem exBuffer3_shows : ShowsPoints exBuffer3 positionLayout (three.map (pointOf positionLayout)) :=
  interleaved_shows_points positionLayout_solid (by unfold AllLen; decide +kernel)

/-- All points at one position. -/
def same : List Bytes := [positionRecord 7 8 9, positionRecord 7 8 9, positionRecord 7 8 9]

def exBufferSame : VectorBuffer := Interleaved.ofRecords positionLayout same

theorem exBufferSame_shows : ShowsPoints exBufferSame positionLayout (same.map (pointOf positionLayout)) :=
  interleaved_shows_points positionLayout_solid (by unfold AllLen; decide +kernel)

end RansacExample

open RansacExample in
/-- The claim fails by rounding: a plane through the three points of a buffer, with a normal and a positive threshold, that
    does not hold the third of them. -/
theorem C101_rounding_violated : Flt.lt (Flt.zero .f64) tiny = true ∧
    ∃ best, ransacPlaneSerial exBuffer3 tiny [[0, 1, 2]] = some (.ok best) ∧ SpansPlane best.1 ∧
      PlaneModel (positionsOf (three.map (pointOf positionLayout))) tiny best ∧ best.2 = [0, 1] ∧
      ¬ PlaneHoldsSample (positionsOf (three.map (pointOf positionLayout))) best := by
  refine ⟨by decide +kernel, ?_⟩
  have hrun : ∃ best, ransacPlaneSerial exBuffer3 tiny [[0, 1, 2]] = some (.ok best) ∧ SpansPlane best.1 ∧ best.2 = [0, 1] := by
    have : (match ransacPlaneSerial exBuffer3 tiny [[0, 1, 2]] with
      | some (.ok best) => decide (SpansPlane best.1) && decide (best.2 = [0, 1])
      | _ => false) = true := by decide +kernel
    split at this
    next best e =>
      rw [Bool.and_eq_true, decide_eq_true_eq, decide_eq_true_eq] at this
      exact ⟨best, e, this⟩
    next => cases this
  obtain ⟨best, e, hs, hi⟩ := hrun
  obtain ⟨models, best', e', hb, hf⟩ := C59_plane_serial exBuffer3 positionLayout positionLayout_solid _ exBuffer3_shows
    (by decide +kernel) (by decide +kernel) tiny [[0, 1, 2]] (by simp) _ e
  cases Except.ok.inj e'
  have hm : PlaneModel (positionsOf (three.map (pointOf positionLayout))) tiny best := by
    cases hf with
    | cons h1 h2 =>
      cases h2
      rw [List.mem_singleton.1 hb.1]
      exact h1.2
  refine ⟨best, e, hs, hm, hi, ?_⟩
  rintro ⟨i, j, k, _, _, _, h1, h2, h3, _, _, _, _, i1, i2, i3⟩
  rw [hi] at i1 i2 i3
  simp only [List.mem_cons, List.not_mem_nil, or_false] at i1 i2 i3
  omega

open RansacExample in
/-- The claim fails for three points on a line: the plane has no inlier. -/
theorem C101_collinear_violated : (ransacPlaneSerial exBuffer5 half [[0, 1, 2]]).map (fun r => r.map Prod.snd) = some (.ok []) := by
  decide +kernel

namespace RansacExample

/-! Cases that meet the hypotheses. -/

/-- The returned line spans, and holds both of its points. -/
example : (match ransacLineSerial exBuffer5 half [[0, 4], [6, 1, 0], [3, 4]] with
    | some (.ok best) => decide (SpansLine best.1) | _ => false) = true := by decide +kernel

/-- Also with the smallest positive threshold. -/
example : (ransacLineSerial exBuffer3 ⟨false, 1⟩ [[2, 0]]).map (fun r => r.map Prod.snd) = some (.ok [0, 2]) := by
  decide +kernel

example : (match ransacPlaneSerial exBuffer5 half [[0, 4, 2], [0, 1, 3]] with
    | some (.ok best) => decide (SpansPlane best.1) | _ => false) = true := by decide +kernel

/-- Three points at one position: nothing is an inlier, even with a large threshold. -/
example : (∀ r, ransacLineSerial exBufferSame (Flt.ofInt .f64 1000) [[0, 1], [2, 0]] = some r →
      ∃ best, r = .ok best ∧ best.1.ranking = 0 ∧ best.2 = []) ∧
    (ransacLineSerial exBufferSame (Flt.ofInt .f64 1000) [[0, 1], [2, 0]]).isSome = true :=
  ⟨(C101_duplicates_violated exBufferSame positionLayout positionLayout_solid _ exBufferSame_shows (by decide +kernel)
    ⟨Flt.ofInt .f64 7, Flt.ofInt .f64 8, Flt.ofInt .f64 9⟩ (by decide +kernel) _ _ (by simp)).1 (by decide +kernel), by decide +kernel⟩

end RansacExample

end Pasture.Props
