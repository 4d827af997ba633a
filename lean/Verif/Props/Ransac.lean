import Verif.Lemmas.Ransac

/-!
# RANSAC: C59
-/

namespace Pasture.Props

open Spec Ransac BorrowedBuffer

theorem mapM_models {μ : Type} {g : List Nat → Option μ} : ∀ {draws : List (List Nat)} {models : List μ},
    draws.mapM g = some models → List.Forall₂ (fun ds m => g ds = some m) draws models := by
  intro draws
  induction draws with
  | nil =>
    intro models h
    cases h
    exact .nil
  | cons ds rest ih =>
    intro models h
    rw [List.mapM_cons] at h
    cases h1 : g ds with
    | none => rw [h1] at h; cases h
    | some m =>
      cases h2 : rest.mapM g with
      | none => rw [h1, h2] at h; cases h
      | some ms =>
        rw [h1, h2] at h
        rw [← Option.some.inj h]
        exact .cons h1 (ih h2)

theorem mapM_some {μ : Type} {g : List Nat → Option μ} : ∀ {draws : List (List Nat)}, (∀ ds ∈ draws, g ds ≠ none) →
    ∃ models, draws.mapM g = some models := by
  intro draws
  induction draws with
  | nil => intro _; exact ⟨[], rfl⟩
  | cons ds rest ih =>
    intro h
    obtain ⟨ms, hms⟩ := ih fun d hd => h d (List.mem_cons_of_mem _ hd)
    cases h1 : g ds with
    | none => exact absurd h1 (h ds List.mem_cons_self)
    | some m => exact ⟨m :: ms, by rw [List.mapM_cons, h1, hms]; rfl⟩

/-- What the serial and parallel functions do when single iterations yield models. -/
theorem best_model {μ : Type} (Model : μ → Prop) (rk : μ → Nat) (inl : μ → List Nat) (hrk : ∀ m, Model m → rk m = (inl m).length)
    (generate : List Nat → Option (Out μ)) (hg : ∀ ds, generate ds = none ∨ ∃ m, generate ds = some (.ok m) ∧ Model m) :
    (∀ s, bestParallel generate rk s = bestSerial generate rk s.iterations) ∧
    (bestSerial generate rk [] = some (.error .panic)) ∧
    (∀ draws, (∀ ds ∈ draws, generate ds ≠ none) → bestSerial generate rk draws ≠ none) ∧
    ∀ draws r, draws ≠ [] → bestSerial generate rk draws = some r →
      ∃ models best, r = .ok best ∧ List.Forall₂ (fun ds m => generate ds = some (.ok m) ∧ Model m) draws models ∧
        Best inl models best := by
  let g : List Nat → Option μ := fun ds => (generate ds).bind Except.toOption
  have hgg : ∀ ds, generate ds = (g ds).map .ok := by
    intro ds
    show generate ds = ((generate ds).bind Except.toOption).map _
    rcases hg ds with h | ⟨m, h, _⟩ <;> rw [h] <;> rfl
  refine ⟨bestParallel_eq rk hgg, rfl, ?_, ?_⟩
  · intro draws hd
    obtain ⟨models, hm⟩ := mapM_some (g := g) (draws := draws) (by
      intro ds hds hn
      apply hd ds hds
      rw [hgg, hn]
      rfl)
    rw [bestSerial_eq rk hgg, hm]
    simp
  · intro draws r hne hr
    rw [bestSerial_eq rk hgg] at hr
    cases hm : draws.mapM g with
    | none => rw [hm] at hr; cases hr
    | some models =>
      rw [hm] at hr
      have hf := mapM_models hm
      have hall : List.Forall₂ (fun ds m => generate ds = some (.ok m) ∧ Model m) draws models := by
        refine hf.imp ?_
        intro ds m h
        have h1 : generate ds = some (.ok m) := by rw [hgg, h]; rfl
        refine ⟨h1, ?_⟩
        rcases hg ds with h2 | ⟨m', h2, h3⟩
        · rw [h1] at h2; cases h2
        · rw [h1] at h2
          rw [Except.ok.inj (Option.some.inj h2)]
          exact h3
      cases models with
      | nil => cases hf; exact absurd rfl hne
      | cons m ms =>
        refine ⟨m :: ms, ms.foldl (maxStep rk) m, (Option.some.inj hr).symm, hall, ?_⟩
        obtain ⟨h1, h2⟩ := max_fold rk ms m
        have hmod : ∀ x ∈ m :: ms, rk x = (inl x).length := by
          intro x hx
          have : ∀ {ds : List (List Nat)} {xs : List μ}, List.Forall₂ (fun ds m => generate ds = some (.ok m) ∧ Model m) ds xs →
              ∀ x ∈ xs, Model x := by
            intro ds xs h
            induction h with
            | nil => intro x hx; cases hx
            | cons h _ ih =>
              intro x hx
              rcases List.mem_cons.1 hx with rfl | hx
              · exact h.2
              · exact ih x hx
          exact hrk x (this hall x hx)
        refine ⟨h1, fun x hx => ?_⟩
        rw [← hmod x hx, ← hmod _ h1]
        exact h2 x hx

section
variable {β : Type} [BorrowedBuffer β] (b : β) (l : PointLayout) (hl : Solid l) (ps : List Point) (h : ShowsPoints b l ps)
  (hpos : position3D ∈ l.attributes.map Member.definition)
include hl h hpos

/-- C59: `ransac_plane_serial` returns one of the planes of the iterations, with its inliers, and no iteration has more
    inliers. -/
theorem C59_plane_serial (h3 : 3 ≤ ps.length) (threshold : F64) (draws : List (List Nat)) (hne : draws ≠ [])
    (r : Out (Plane F64 × List Nat)) (hr : ransacPlaneSerial b threshold draws = some r) :
    ∃ models best, r = .ok best ∧ Best Prod.snd models best ∧
      List.Forall₂ (fun ds m => generatePlaneModel b threshold ds = some (.ok m) ∧ PlaneModel (positionsOf ps) threshold m)
        draws models := by
  have hlen : len b = ps.length := h.len_eq
  unfold ransacPlaneSerial at hr
  rw [if_neg (by omega)] at hr
  obtain ⟨models, best, h1, h2, h3⟩ := (best_model (PlaneModel (positionsOf ps) threshold) _ Prod.snd (fun m hm => hm.ranking)
    _ (planes hl h hpos (by intro e; rw [e] at h3; exact absurd h3 (by decide)) threshold)).2.2.2 draws r hne hr
  exact ⟨models, best, h1, h3, h2⟩

/-- C59: `ransac_plane_par` returns the same as `ransac_plane_serial` would for the same planes, however the iterations are
    distributed and the results joined. -/
theorem C59_plane_schedule (h3 : 3 ≤ ps.length) (threshold : F64) (schedule : Schedule) :
    ransacPlanePar b threshold schedule = ransacPlaneSerial b threshold schedule.iterations := by
  have hlen : len b = ps.length := h.len_eq
  unfold ransacPlanePar ransacPlaneSerial
  rw [if_neg (by omega), if_neg (by omega)]
  exact (best_model (PlaneModel (positionsOf ps) threshold) _ Prod.snd (fun m hm => hm.ranking)
    _ (planes hl h hpos (by intro e; rw [e] at h3; exact absurd h3 (by decide)) threshold)).1 schedule

/-- C59, for lines. -/
theorem C59_line_serial (h2 : 2 ≤ ps.length) (threshold : F64) (draws : List (List Nat)) (hne : draws ≠ [])
    (r : Out (Line F64 × List Nat)) (hr : ransacLineSerial b threshold draws = some r) :
    ∃ models best, r = .ok best ∧ Best Prod.snd models best ∧
      List.Forall₂ (fun ds m => generateLineModel b threshold ds = some (.ok m) ∧ LineModel (positionsOf ps) threshold m)
        draws models := by
  have hlen : len b = ps.length := h.len_eq
  unfold ransacLineSerial at hr
  rw [if_neg (by omega)] at hr
  obtain ⟨models, best, h1, h2, h3⟩ := (best_model (LineModel (positionsOf ps) threshold) _ Prod.snd (fun m hm => hm.ranking)
    _ (lines hl h hpos (by intro e; rw [e] at h2; exact absurd h2 (by decide)) threshold)).2.2.2 draws r hne hr
  exact ⟨models, best, h1, h3, h2⟩

/-- C59, for lines. -/
theorem C59_line_schedule (h2 : 2 ≤ ps.length) (threshold : F64) (schedule : Schedule) :
    ransacLinePar b threshold schedule = ransacLineSerial b threshold schedule.iterations := by
  have hlen : len b = ps.length := h.len_eq
  unfold ransacLinePar ransacLineSerial
  rw [if_neg (by omega), if_neg (by omega)]
  exact (best_model (LineModel (positionsOf ps) threshold) _ Prod.snd (fun m hm => hm.ranking)
    _ (lines hl h hpos (by intro e; rw [e] at h2; exact absurd h2 (by decide)) threshold)).1 schedule

/-- The functions return if every iteration draws enough different indices. -/
theorem C59_returns (threshold : F64) (draws : List (List Nat)) :
    ((∀ ds ∈ draws, Draws ps.length 3 ds) → ransacPlaneSerial b threshold draws ≠ none) ∧
    ((∀ ds ∈ draws, Draws ps.length 2 ds) → ransacLineSerial b threshold draws ≠ none) := by
  have hlen : len b = ps.length := h.len_eq
  constructor
  · intro hd
    unfold ransacPlaneSerial
    split
    · simp
    · rename_i hn
      refine (best_model (PlaneModel (positionsOf ps) threshold) _ Prod.snd (fun m hm => hm.ranking) _
        (planes hl h hpos (by intro e; rw [e] at hlen; simp at hlen; omega) threshold)).2.2.1 draws ?_
      intro ds hds
      obtain ⟨is, i1, i2, i3⟩ := hd ds hds
      -- the three indices
      match is, i1 with
      | [x, y, z], _ =>
        obtain ⟨hxy, hxz, hyz⟩ : x ≠ y ∧ x ≠ z ∧ y ≠ z := by
          simp only [List.nodup_cons, List.mem_cons, List.not_mem_nil, or_false, not_or] at i2
          exact ⟨i2.1.1, i2.1.2, i2.2.1⟩
        have mx := i3 x (by simp)
        have my := i3 y (by simp)
        have mz := i3 z (by simp)
        clear i3 i2
        obtain ⟨d, hdm, _⟩ := List.mem_map.1 mx
        obtain ⟨r1, b1, ds1, e1, f1, g1⟩ := drawUntil_ends (bad := fun _ => false) (n := ps.length) (ds := ds) ⟨d, hdm, rfl⟩
        rw [f1] at mx my mz
        have in1 : ∀ w, w ∈ b1 ++ r1 :: ds1.map (· % ps.length) → w ≠ r1 → w ∈ ds1.map (· % ps.length) := by
          intro w hw hne
          rcases List.mem_append.1 hw with hw | hw
          · exact absurd (g1 w hw) (by simp)
          · rcases List.mem_cons.1 hw with hw | hw
            · exact absurd hw hne
            · exact hw
        have : ∃ d ∈ ds1, (fun r => r1 == r) (d % ps.length) = false := by
          have : ∃ w, w ≠ r1 ∧ w ∈ ds1.map (· % ps.length) := by
            by_cases hx : x = r1
            · exact ⟨y, fun e => hxy (hx.trans e.symm), in1 y my fun e => hxy (hx.trans e.symm)⟩
            · exact ⟨x, hx, in1 x mx hx⟩
          obtain ⟨w, hw, hm⟩ := this
          obtain ⟨d, hd, rfl⟩ := List.mem_map.1 hm
          exact ⟨d, hd, by simpa using fun e => hw e.symm⟩
        obtain ⟨r2, b2, ds2, e2, f2, g2⟩ := drawUntil_ends this
        have in2 : ∀ w, w ∈ ds1.map (· % ps.length) → w ≠ r1 → w ≠ r2 → w ∈ ds2.map (· % ps.length) := by
          intro w hw hne hne2
          rw [f2] at hw
          rcases List.mem_append.1 hw with hw | hw
          · exact absurd (by simpa using g2 w hw) fun e : r1 = w => hne e.symm
          · rcases List.mem_cons.1 hw with hw | hw
            · exact absurd hw hne2
            · exact hw
        have : ∃ d ∈ ds2, (fun r => r2 == r || r1 == r) (d % ps.length) = false := by
          have : ∃ w, w ≠ r1 ∧ w ≠ r2 ∧ w ∈ ds2.map (· % ps.length) := by
            have : ∃ w, w ≠ r1 ∧ w ≠ r2 ∧ w ∈ b1 ++ r1 :: ds1.map (· % ps.length) := by
              by_cases hx : x ≠ r1 ∧ x ≠ r2
              · exact ⟨x, hx.1, hx.2, mx⟩
              · by_cases hy : y ≠ r1 ∧ y ≠ r2
                · exact ⟨y, hy.1, hy.2, my⟩
                · exact ⟨z, by omega, by omega, mz⟩
            obtain ⟨w, w1, w2, w3⟩ := this
            exact ⟨w, w1, w2, in2 w (in1 w w3 w1) w1 w2⟩
          obtain ⟨w, w1, w2, w3⟩ := this
          obtain ⟨d, hd, rfl⟩ := List.mem_map.1 w3
          refine ⟨d, hd, ?_⟩
          rw [Bool.or_eq_false_iff]
          exact ⟨by simpa using fun e => w2 e.symm, by simpa using fun e => w1 e.symm⟩
        obtain ⟨r3, b3, ds3, e3, _, _⟩ := drawUntil_ends (bad := fun r => r2 == r || r1 == r) this
        unfold generatePlaneModel generateRngPlane
        rw [hlen, if_neg (by omega)]
        simp only [bind, Option.bind, e1, e2, e3]
        simp
  · intro hd
    unfold ransacLineSerial
    split
    · simp
    · rename_i hn
      refine (best_model (LineModel (positionsOf ps) threshold) _ Prod.snd (fun m hm => hm.ranking) _
        (lines hl h hpos (by intro e; rw [e] at hlen; simp at hlen; omega) threshold)).2.2.1 draws ?_
      intro ds hds
      obtain ⟨is, i1, i2, i3⟩ := hd ds hds
      match is, i1 with
      | [x, y], _ =>
        have hxy : x ≠ y := by simpa using i2
        have mx := i3 x (by simp)
        have my := i3 y (by simp)
        clear i3 i2
        obtain ⟨d, hdm, _⟩ := List.mem_map.1 mx
        obtain ⟨r1, b1, ds1, e1, f1, g1⟩ := drawUntil_ends (bad := fun _ => false) (n := ps.length) (ds := ds) ⟨d, hdm, rfl⟩
        rw [f1] at mx my
        have in1 : ∀ w, w ∈ b1 ++ r1 :: ds1.map (· % ps.length) → w ≠ r1 → w ∈ ds1.map (· % ps.length) := by
          intro w hw hne
          rcases List.mem_append.1 hw with hw | hw
          · exact absurd (g1 w hw) (by simp)
          · rcases List.mem_cons.1 hw with hw | hw
            · exact absurd hw hne
            · exact hw
        have : ∃ d ∈ ds1, (fun r => r1 == r) (d % ps.length) = false := by
          have : ∃ w, w ≠ r1 ∧ w ∈ ds1.map (· % ps.length) := by
            by_cases hx : x = r1
            · exact ⟨y, fun e => hxy (hx.trans e.symm), in1 y my fun e => hxy (hx.trans e.symm)⟩
            · exact ⟨x, hx, in1 x mx hx⟩
          obtain ⟨w, hw, hm⟩ := this
          obtain ⟨d, hd, rfl⟩ := List.mem_map.1 hm
          exact ⟨d, hd, by simpa using fun e => hw e.symm⟩
        obtain ⟨r2, b2, ds2, e2, _, _⟩ := drawUntil_ends this
        unfold generateLineModel generateRngLine
        rw [hlen, if_neg (by omega)]
        simp only [bind, Option.bind, e1, e2]
        simp

end

/-- Too few points, and no iterations, are panics; only the former is documented. -/
theorem C59_panics {β : Type} [BorrowedBuffer β] (b : β) (threshold : F64) :
    (len b < 3 → ∀ draws s, ransacPlaneSerial b threshold draws = some (.error .panic) ∧
      ransacPlanePar b threshold s = some (.error .panic)) ∧
    (len b < 2 → ∀ draws s, ransacLineSerial b threshold draws = some (.error .panic) ∧
      ransacLinePar b threshold s = some (.error .panic)) ∧
    (ransacPlaneSerial b threshold [] = some (.error .panic) ∧ ransacLineSerial b threshold [] = some (.error .panic) ∧
      ransacPlanePar b threshold .idle = some (.error .panic) ∧ ransacLinePar b threshold .idle = some (.error .panic)) := by
  refine ⟨?_, ?_, ?_⟩
  · intro h draws s
    exact ⟨if_pos h, if_pos h⟩
  · intro h draws s
    exact ⟨if_pos h, if_pos h⟩
  · refine ⟨?_, ?_, ?_, ?_⟩
    · unfold ransacPlaneSerial; split <;> rfl
    · unfold ransacLineSerial; split <;> rfl
    · unfold ransacPlanePar; split <;> rfl
    · unfold ransacLinePar; split <;> rfl

/-! A case: five points, four of them in the plane `z = 0` and three of these on a line. -/

namespace RansacExample

def positionLayout : PointLayout := ⟨[⟨position3D, 0⟩], 24, 8⟩

def positionRecord (x y z : Int) : Bytes :=
  writeNum .f64 (.double (Flt.ofInt .f64 x)) ++ writeNum .f64 (.double (Flt.ofInt .f64 y)) ++
    writeNum .f64 (.double (Flt.ofInt .f64 z))

def exRecords : List Bytes :=
  [positionRecord 0 0 0, positionRecord 1 0 0, positionRecord 2 0 0, positionRecord 3 1 0, positionRecord 5 7 9]

def exBuffer5 : VectorBuffer := Interleaved.ofRecords positionLayout exRecords

theorem positionLayout_solid : Solid positionLayout :=
  ⟨by decide +kernel, by decide +kernel, by decide +kernel, by decide +kernel, by decide +kernel⟩

theorem exBuffer5_shows : ShowsPoints exBuffer5 positionLayout (exRecords.map (pointOf positionLayout)) :=
  interleaved_shows_points positionLayout_solid (by unfold AllLen; decide +kernel)

/-- 0.5. -/
def half : F64 := (Flt.ofInt .f64 1).div (Flt.ofInt .f64 2)

/-- The first line has two inliers, the second one three. -/
example : ransacLineSerial exBuffer5 half [[0, 4], [6, 1, 0], [3, 4]] =
    some (.ok (⟨⟨Flt.ofInt .f64 1, Flt.ofInt .f64 0, Flt.ofInt .f64 0⟩, ⟨Flt.ofInt .f64 0, Flt.ofInt .f64 0, Flt.ofInt .f64 0⟩, 3⟩,
      [0, 1, 2])) := by decide +kernel

example : (ransacPlaneSerial exBuffer5 half [[0, 4, 2], [0, 1, 3]]).map (fun r => r.map Prod.snd) = some (.ok [0, 1, 2, 3]) := by
  decide +kernel

example (schedule : Schedule) (hs : schedule.iterations = [[0, 4, 2], [0, 1, 3]]) :
    (ransacPlanePar exBuffer5 half schedule).map (fun r => r.map Prod.snd) = some (.ok [0, 1, 2, 3]) := by
  rw [C59_plane_schedule exBuffer5 positionLayout positionLayout_solid _ exBuffer5_shows (by decide +kernel) (by decide +kernel), hs]
  decide +kernel

example : Draws 5 3 [0, 5, 4, 2] := ⟨[0, 4, 2], by decide, by decide, by decide⟩

end RansacExample

end Pasture.Props
