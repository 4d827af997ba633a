import Verif.Spec.Ransac
import Verif.Lemmas.VoxelCentroid
import Verif.Props.Bounds

/-!
# Lemmas about RANSAC
-/

namespace Pasture

open Spec Ransac BorrowedBuffer

/-! ## The greatest -/

section
variable {μ : Type} (rk : μ → Nat)

theorem max_fold : ∀ (ms : List μ) (m : μ), ms.foldl (maxStep rk) m ∈ m :: ms ∧
    ∀ x ∈ m :: ms, rk x ≤ rk (ms.foldl (maxStep rk) m) := by
  intro ms
  induction ms with
  | nil => intro m; simp
  | cons y ms ih =>
    intro m
    obtain ⟨h1, h2⟩ := ih (maxStep rk m y)
    rw [List.foldl_cons]
    have hs : maxStep rk m y = m ∨ maxStep rk m y = y := by unfold maxStep; split <;> simp
    have hb : rk m ≤ rk (maxStep rk m y) ∧ rk y ≤ rk (maxStep rk m y) := by unfold maxStep; split <;> omega
    constructor
    · rcases List.mem_cons.1 h1 with h | h
      · rw [h]; rcases hs with e | e <;> rw [e] <;> simp
      · simp [h]
    · intro x hx
      have h3 := h2 _ List.mem_cons_self
      rcases List.mem_cons.1 hx with rfl | hx
      · omega
      · rcases List.mem_cons.1 hx with rfl | hx
        · omega
        · exact h2 x (List.mem_cons_of_mem _ hx)

theorem maxStep_assoc (x y z : μ) : maxStep rk (maxStep rk x y) z = maxStep rk x (maxStep rk y z) := by
  unfold maxStep
  grind

theorem joinBest_assoc (x y z : Option μ) : joinBest rk (joinBest rk x y) z = joinBest rk x (joinBest rk y z) := by
  cases x <;> cases y <;> cases z <;> simp [joinBest, maxStep_assoc]

theorem joinBest_none (x : Option μ) : joinBest rk x none = x := by cases x <;> rfl

theorem fold_some (ms : List μ) (m : μ) : some (ms.foldl (maxStep rk) m) = joinBest rk (some m) (maxBy rk ms) := by
  induction ms generalizing m with
  | nil => rfl
  | cons y ms ih =>
    rw [List.foldl_cons, ih, maxBy, ih, ← joinBest_assoc]
    rfl

theorem maxBy_append (xs ys : List μ) : maxBy rk (xs ++ ys) = joinBest rk (maxBy rk xs) (maxBy rk ys) := by
  induction xs with
  | nil => rfl
  | cons x xs ih =>
    show some ((xs ++ ys).foldl _ _) = joinBest rk (some (xs.foldl _ _)) _
    rw [fold_some, ih, fold_some, joinBest_assoc]

/-! ## Iterations that do not fail -/

variable {generate : List Nat → Option (Out μ)} {g : List Nat → Option μ} (hg : ∀ ds, generate ds = (g ds).map .ok)
include hg

theorem runAll_eq (draws : List (List Nat)) : runAll generate draws = (draws.mapM g).map .ok := by
  induction draws with
  | nil => rfl
  | cons ds rest ih =>
    rw [runAll, hg, ih, List.mapM_cons]
    cases g ds with
    | none => rfl
    | some m =>
      cases rest.mapM g with
      | none => rfl
      | some ms => rfl

theorem reduce_eq (s : Schedule) :
    reduce generate rk s = (s.iterations.mapM g).map fun ms => .ok (maxBy rk ms) := by
  induction s with
  | idle => rfl
  | iteration ds =>
    rw [reduce, hg, Schedule.iterations, List.mapM_cons]
    cases g ds <;> rfl
  | join l r ihl ihr =>
    rw [reduce, ihl, ihr, Schedule.iterations, List.mapM_append]
    cases l.iterations.mapM g with
    | none => rfl
    | some xs =>
      cases r.iterations.mapM g with
      | none => rfl
      | some ys =>
        show some (Except.ok (joinBest rk (maxBy rk xs) (maxBy rk ys))) = some (Except.ok (maxBy rk (xs ++ ys)))
        rw [maxBy_append]

/-- The serial function. -/
theorem bestSerial_eq (draws : List (List Nat)) :
    bestSerial generate rk draws = (draws.mapM g).map fun ms => expectSome (maxBy rk ms) := by
  unfold bestSerial
  rw [runAll_eq hg]
  cases draws.mapM g <;> rfl

/-- The parallel function gives the same, however it is scheduled. -/
theorem bestParallel_eq (s : Schedule) : bestParallel generate rk s = bestSerial generate rk s.iterations := by
  rw [bestSerial_eq rk hg]
  unfold bestParallel
  rw [reduce_eq rk hg]
  cases s.iterations.mapM g <;> rfl

end

/-! ## One iteration -/

theorem drawUntil_some {bad : Nat → Bool} {n : Nat} : ∀ {ds : List Nat} {r rest}, drawUntil bad n ds = some (r, rest) →
    bad r = false ∧ ∃ d, r = d % n := by
  intro ds
  induction ds with
  | nil => intro r rest h; cases h
  | cons d ds ih =>
    intro r rest h
    unfold drawUntil at h
    split at h
    · exact ih h
    · rename_i hb
      have h := Option.some.inj h
      rw [Prod.mk.injEq] at h
      rw [← h.1]
      exact ⟨by simpa using hb, d, rfl⟩

variable {β : Type} [BorrowedBuffer β] {b : β} {l : PointLayout} {ps : List Point}

theorem positions_get (hl : Solid l) (h : ShowsPoints b l ps) (hpos : position3D ∈ l.attributes.map Member.definition) :
    (positionsOf ps).length = ps.length ∧
    enumeratePositions b = .ok ((List.range (positionsOf ps).length).zip (positionsOf ps)) ∧
    ∀ i < ps.length, ∃ p, positionAt b i = .ok p ∧ (positionsOf ps)[i]? = some p := by
  obtain ⟨m, hm, hd⟩ := List.mem_map.1 hpos
  obtain ⟨xs, hx, ha⟩ := column_some hl h hm
  have hx' : xs = ps.filterMap fun p => p.get position3D := by rw [← hd]; exact Props.column_all hx
  obtain ⟨c1, c2⟩ := column_get hx
  have hposs : positionsOf ps = xs.map readVec3F64 := by unfold positionsOf; rw [← hx']; rfl
  refine ⟨by rw [hposs, List.length_map, c1], ?_, ?_⟩
  · unfold enumeratePositions
    rw [(Props.C62_attribute_view_checks b l hl ps h .vec3f64 position3D).1 rfl m hm hd]
    show (AttributeView.values b ⟨.vec3f64, m⟩).bind _ = _
    have hty : (.vec3f64 : DataType) = m.datatype := by
      show _ = m.definition.datatype
      rw [hd]
      rfl
    rw [hty, Props.view_values hl h hm hx, hposs, List.length_map]
    rfl
  · intro i hi
    obtain ⟨v, h1, h2, _⟩ := Voxel.value_at hl h hm hi
    rw [hd] at h1
    refine ⟨readVec3F64 v, ?_, ?_⟩
    · unfold positionAt
      rw [show Voxel.valueAt b .vec3f64 position3D i = .ok v from h1]
      rfl
    · rw [hposs, List.getElem?_map, ← c2 i]
      exact congrArg _ h2

/-- The loop that collects inliers: `step` keeps what the distance depends on. -/
theorem collect_inliers {μ : Type} (step : μ × List Nat → Nat × P3 F64 → μ × List Nat) (bump : μ → μ)
    (dist : P3 F64 → F64) (thr : F64) (m0 : μ) (bumps : Nat → μ) (h0 : bumps 0 = m0) (hs : ∀ k, bumps (k + 1) = bump (bumps k))
    (hstep : ∀ k is (ip : Nat × P3 F64), step (bumps k, is) ip =
      if Flt.lt (dist ip.2) thr then (bump (bumps k), is ++ [ip.1]) else (bumps k, is)) (positions : List (P3 F64)) :
    ∃ is : List Nat, ((List.range positions.length).zip positions).foldl step (m0, []) = (bumps is.length, is) ∧
      Inliers dist thr positions is := by
  suffices H : ∀ n ≤ positions.length, ∃ is : List Nat,
      (((List.range positions.length).zip positions).take n).foldl step (m0, []) = (bumps is.length, is) ∧
      is.Pairwise (· < ·) ∧ ∀ i : Nat, i ∈ is ↔ i < n ∧ ∃ p, positions[i]? = some p ∧ Flt.lt (dist p) thr = true by
    obtain ⟨is, h1, h2, h3⟩ := H _ (Nat.le_refl _)
    rw [List.take_of_length_le (by simp)] at h1
    refine ⟨is, h1, h2, ?_⟩
    intro i
    rw [h3]
    constructor
    · exact fun h => h.2
    · rintro ⟨p, hp, h⟩
      exact ⟨(List.getElem?_eq_some_iff.1 hp).1, p, hp, h⟩
  intro n
  induction n with
  | zero =>
    intro _
    exact ⟨[], by simp [h0], .nil, by simp⟩
  | succ n ih =>
    intro hn
    obtain ⟨is, h1, h2, h3⟩ := ih (by omega)
    have hget : ((List.range positions.length).zip positions)[n]? = some (n, positions[n]) := by
      rw [List.getElem?_eq_getElem (by simp; omega)]
      simp
    rw [List.take_add_one, hget]
    simp only [Option.toList_some, List.foldl_append, List.foldl_cons, List.foldl_nil, h1]
    rw [hstep]
    have hp : positions[n]? = some positions[n] := List.getElem?_eq_getElem (by omega)
    by_cases hlt : Flt.lt (dist positions[n]) thr = true
    · refine ⟨is ++ [n], ?_, ?_, ?_⟩
      · rw [if_pos hlt]
        simp [hs]
      · rw [List.pairwise_append]
        refine ⟨h2, List.pairwise_singleton _ _, ?_⟩
        intro a ha c hc
        rw [List.mem_singleton.1 hc]
        exact ((h3 a).1 ha).1
      · intro i
        rw [List.mem_append, h3, List.mem_singleton]
        constructor
        · rintro (⟨h, hh⟩ | rfl)
          · exact ⟨by omega, hh⟩
          · exact ⟨by omega, _, hp, hlt⟩
        · rintro ⟨h, hh⟩
          by_cases hin : i = n
          · exact .inr hin
          · exact .inl ⟨by omega, hh⟩
    · refine ⟨is, by rw [if_neg hlt], h2, ?_⟩
      intro i
      rw [h3]
      constructor
      · rintro ⟨h, hh⟩
        exact ⟨by omega, hh⟩
      · rintro ⟨h, q, hq, hh⟩
        refine ⟨?_, q, hq, hh⟩
        by_contra hc
        have hin : i = n := by omega
        subst hin
        rw [hp] at hq
        rw [← Option.some.inj hq] at hh
        exact hlt hh

theorem planes (hl : Solid l) (h : ShowsPoints b l ps) (hpos : position3D ∈ l.attributes.map Member.definition)
    (hne : ps ≠ []) (thr : F64) (ds : List Nat) :
    generatePlaneModel b thr ds = none ∨
      ∃ m, generatePlaneModel b thr ds = some (.ok m) ∧ PlaneModel (positionsOf ps) thr m := by
  obtain ⟨g1, g2, g3⟩ := positions_get hl h hpos
  have hn : 0 < ps.length := List.length_pos_iff.2 hne
  have hlen : len b = ps.length := h.len_eq
  unfold generatePlaneModel generateRngPlane
  rw [hlen, if_neg (by omega)]
  cases e1 : drawUntil (fun _ => false) ps.length ds with
  | none => exact .inl rfl
  | some x1 =>
    obtain ⟨r1, ds1⟩ := x1
    cases e2 : drawUntil (fun r => r1 == r) ps.length ds1 with
    | none => left; simp only [bind, Option.bind, e2]
    | some x2 =>
      obtain ⟨r2, ds2⟩ := x2
      cases e3 : drawUntil (fun r => r2 == r || r1 == r) ps.length ds2 with
      | none => left; simp only [bind, Option.bind, e2, e3]
      | some x3 =>
        obtain ⟨r3, ds3⟩ := x3
        right
        obtain ⟨_, d1, hd1⟩ := drawUntil_some e1
        obtain ⟨b2, d2, hd2⟩ := drawUntil_some e2
        obtain ⟨b3, d3, hd3⟩ := drawUntil_some e3
        obtain ⟨p, p1, p2⟩ := g3 r1 (by rw [hd1]; exact Nat.mod_lt _ hn)
        obtain ⟨q, q1, q2⟩ := g3 r2 (by rw [hd2]; exact Nat.mod_lt _ hn)
        obtain ⟨r, s1, s2⟩ := g3 r3 (by rw [hd3]; exact Nat.mod_lt _ hn)
        obtain ⟨is, i1, i2⟩ := collect_inliers (planeStep thr) (fun m => { m with ranking := m.ranking + 1 })
          (fun x => distancePointPlane x (planeThrough p q r)) thr (planeThrough p q r)
          (fun k => { planeThrough p q r with ranking := k }) rfl (fun _ => rfl) (by intro k is ip; rfl) (positionsOf ps)
        refine ⟨({ planeThrough p q r with ranking := is.length }, is), ?_, ?_, i2, rfl⟩
        · simp only [bind, Option.bind, e2, e3, p1, q1, s1, Except.bind, g2, pure, Except.pure, i1]
        · refine ⟨r1, r2, r3, p, q, r, ?_, ?_, ?_, p2, q2, s2, rfl⟩
          · simpa using b2
          · have := Bool.or_eq_false_iff.1 b3
            simpa using this.2
          · have := Bool.or_eq_false_iff.1 b3
            simpa using this.1

theorem lines (hl : Solid l) (h : ShowsPoints b l ps) (hpos : position3D ∈ l.attributes.map Member.definition)
    (hne : ps ≠ []) (thr : F64) (ds : List Nat) :
    generateLineModel b thr ds = none ∨
      ∃ m, generateLineModel b thr ds = some (.ok m) ∧ LineModel (positionsOf ps) thr m := by
  obtain ⟨g1, g2, g3⟩ := positions_get hl h hpos
  have hn : 0 < ps.length := List.length_pos_iff.2 hne
  have hlen : len b = ps.length := h.len_eq
  unfold generateLineModel generateRngLine
  rw [hlen, if_neg (by omega)]
  cases e1 : drawUntil (fun _ => false) ps.length ds with
  | none => exact .inl rfl
  | some x1 =>
    obtain ⟨r1, ds1⟩ := x1
    cases e2 : drawUntil (fun r => r1 == r) ps.length ds1 with
    | none => left; simp only [bind, Option.bind, e2]
    | some x2 =>
      obtain ⟨r2, ds2⟩ := x2
      right
      obtain ⟨_, d1, hd1⟩ := drawUntil_some e1
      obtain ⟨b2, d2, hd2⟩ := drawUntil_some e2
      obtain ⟨p, p1, p2⟩ := g3 r1 (by rw [hd1]; exact Nat.mod_lt _ hn)
      obtain ⟨q, q1, q2⟩ := g3 r2 (by rw [hd2]; exact Nat.mod_lt _ hn)
      obtain ⟨is, i1, i2⟩ := collect_inliers (lineStep thr) (fun m => { m with ranking := m.ranking + 1 })
        (fun x => distancePointLine x ⟨p, q, 0⟩) thr ⟨p, q, 0⟩
        (fun k => ⟨p, q, k⟩) rfl (fun _ => rfl) (by intro k is ip; rfl) (positionsOf ps)
      refine ⟨(⟨p, q, is.length⟩, is), ?_, ⟨r1, r2, ?_, p2, q2⟩, i2, rfl⟩
      · simp only [bind, Option.bind, e2, p1, q1, Except.bind, g2, pure, Except.pure, i1]
      · simpa using b2

/-- Drawing ends if an index that is not bad comes up. -/
theorem drawUntil_ends {bad : Nat → Bool} {n : Nat} : ∀ {ds : List Nat}, (∃ d ∈ ds, bad (d % n) = false) →
    ∃ r before rest, drawUntil bad n ds = some (r, rest) ∧ ds.map (· % n) = before ++ r :: rest.map (· % n) ∧
      ∀ x ∈ before, bad x = true := by
  intro ds
  induction ds with
  | nil => rintro ⟨d, hd, _⟩; cases hd
  | cons d ds ih =>
    intro h
    unfold drawUntil
    by_cases hb : bad (d % n) = true
    · rw [if_pos hb]
      obtain ⟨e, he, hbe⟩ := h
      rcases List.mem_cons.1 he with rfl | he
      · rw [hb] at hbe; cases hbe
      · obtain ⟨r, before, rest, h1, h2, h3⟩ := ih ⟨e, he, hbe⟩
        refine ⟨r, d % n :: before, rest, h1, by rw [List.map_cons, h2]; rfl, ?_⟩
        intro x hx
        rcases List.mem_cons.1 hx with rfl | hx
        · exact hb
        · exact h3 x hx
    · rw [if_neg hb]
      exact ⟨d % n, [], ds, rfl, rfl, by intro x hx; cases hx⟩

end Pasture
