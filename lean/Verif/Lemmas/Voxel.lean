import Verif.Model.Voxel
import Verif.Spec.Voxel
import Verif.Lemmas.FloatOrder
import Verif.Lemmas.Loop

/-!
# The voxels of a grid
-/

namespace Pasture.Voxel

open Spec Flt

/-! ## Markers -/

theorem markers_from {lo hi leaf : F64} {k : Nat} (h : Reaches lo hi leaf k) :
    ∀ (n fuel i : Nat), i + n = k → n < fuel → markersOnAxis fuel (marker lo leaf i) hi leaf =
      some ((List.range n).map fun j => marker lo leaf (i + j + 1)) := by
  intro n
  induction n with
  | zero =>
    intro fuel i hi' hf
    obtain ⟨fuel, rfl⟩ : ∃ f, fuel = f + 1 := ⟨fuel - 1, by omega⟩
    unfold markersOnAxis
    rw [show i = k by omega, h.2]
    rfl
  | succ n ih =>
    intro fuel i hi' hf
    obtain ⟨fuel, rfl⟩ : ∃ f, fuel = f + 1 := ⟨fuel - 1, by omega⟩
    unfold markersOnAxis
    rw [h.1 i (by omega), if_pos rfl]
    have := ih fuel (i + 1) (by omega) (by omega)
    dsimp only
    rw [show (marker lo leaf i).add leaf = marker lo leaf (i + 1) from rfl, this, List.range_succ_eq_map]
    simp only [Option.map_some, List.map_cons, List.map_map, Nat.add_zero]
    congr 2
    apply List.map_congr_left
    intro j _
    show marker lo leaf (i + 1 + j + 1) = marker lo leaf (i + (j + 1) + 1)
    rw [show i + 1 + j + 1 = i + (j + 1) + 1 by omega]

theorem markers_reach {lo hi leaf : F64} {k fuel : Nat} (h : Reaches lo hi leaf k) (hf : k < fuel) :
    markersOnAxis fuel lo hi leaf = some (markersOf lo leaf k) := by
  have := markers_from h k fuel 0 (by omega) hf
  rw [show marker lo leaf 0 = lo from rfl] at this
  rw [this]
  simp only [Nat.zero_add]
  rfl

theorem markers_diverge {lo hi leaf : F64} (h : ∀ k, Flt.lt (marker lo leaf k) hi = true) :
    ∀ (fuel i : Nat), markersOnAxis fuel (marker lo leaf i) hi leaf = none := by
  intro fuel
  induction fuel with
  | zero => intro i; rfl
  | succ fuel ih =>
    intro i
    unfold markersOnAxis
    rw [h i, if_pos rfl]
    dsimp only
    rw [show (marker lo leaf i).add leaf = marker lo leaf (i + 1) from rfl, ih]
    rfl

/-- The markers of an axis that is passed through: increasing numbers, the last one beyond `hi`. -/
structure GoodAxis (hi : F64) (ms : List F64) : Prop where
  notNaN : ∀ m ∈ ms, m.isNaN = false
  sorted : ms.Pairwise fun a b => a.rank ≤ b.rank
  reach : ms ≠ [] → ∃ m ∈ ms, hi.rank ≤ m.rank

theorem finite_between {a b c : F64} (ha : a.isFinite = true) (hc : c.isFinite = true)
    (h1 : a.rank ≤ b.rank) (h2 : b.rank ≤ c.rank) : b.isFinite = true := by
  have h3 : a.mag < FloatFormat.f64.infMag := of_decide_eq_true ha
  have h4 : c.mag < FloatFormat.f64.infMag := of_decide_eq_true hc
  apply decide_eq_true
  unfold rank at h1 h2
  split_ifs at h1 h2 <;> omega

theorem good_axis {lo hi leaf : F64} (hlo : lo.isFinite = true) (hhi : hi.isFinite = true) (hleaf : leaf.isNaN = false)
    {k : Nat} (h : Reaches lo hi leaf k) : GoodAxis hi (markersOf lo leaf k) := by
  have hF := usable_f64
  by_cases hk : k = 0
  · subst hk
    exact ⟨by simp [markersOf], by simp [markersOf], fun hc => absurd rfl hc⟩
  -- the leaf size is positive
  have hpos : 0 ≤ leaf.rank := by
    by_contra hc
    have hneg : leaf.rank ≤ 0 := by omega
    have hinfle : ∀ i ≤ k, (marker lo leaf i).isNaN = false ∧ (marker lo leaf i).rank ≤ lo.rank := by
      intro i
      induction i with
      | zero => intro _; exact ⟨(finite_cases hlo).1, Int.le_refl _⟩
      | succ i ih =>
        intro hi'
        obtain ⟨n1, n2⟩ := ih (by omega)
        rcases finite_or_inf n1 with hf | hf
        · exact ⟨add_notNaN hf hleaf, Int.le_trans (add_rank_le hF hf hleaf hneg) n2⟩
        · -- minus infinity stays
          have hm : (marker lo leaf i).mag = FloatFormat.f64.infMag := of_decide_eq_true hf
          have hlom : lo.mag < FloatFormat.f64.infMag := of_decide_eq_true hlo
          have hng : (marker lo leaf i).neg = true := by
            cases hh : (marker lo leaf i).neg with
            | true => rfl
            | false =>
              exfalso
              have e : (marker lo leaf i).rank = (marker lo leaf i).mag := by unfold rank; rw [hh]; rfl
              rw [e, hm] at n2
              have := (rank_bounds (finite_cases hlo).1).2
              have e2 : lo.rank = FloatFormat.f64.infMag := by omega
              unfold rank at e2
              split at e2 <;> omega
          have hln : leaf.isInf = true → leaf.neg = true := by
            intro hl
            cases hh : leaf.neg with
            | true => rfl
            | false =>
              exfalso
              have : leaf.rank = leaf.mag := by unfold rank; rw [hh]; rfl
              omega
          have e : (marker lo leaf (i + 1)) = marker lo leaf i := by
            show (marker lo leaf i).add leaf = _
            unfold add
            rw [if_neg (by rw [n1, hleaf]; simp), if_pos hf]
            rw [if_neg]
            rintro ⟨h1, h2⟩
            rw [hng, hln h1] at h2
            exact h2 rfl
          rw [e]
          exact ⟨n1, n2⟩
    obtain ⟨n1, n2⟩ := hinfle k (Nat.le_refl _)
    have h1 := h.1 0 (by omega)
    have h2 := h.2
    have h1 := (lt_rank (x := lo) (finite_cases hlo).1 (finite_cases hhi).1).1 h1
    have : Flt.lt (marker lo leaf k) hi = true := (lt_rank n1 (finite_cases hhi).1).2 (by
      show _ < hi.rank
      omega)
    rw [this] at h2
    cases h2
  -- markers before the last are finite
  have hfin : ∀ i < k, (marker lo leaf i).isFinite = true ∧ lo.rank ≤ (marker lo leaf i).rank := by
    intro i
    induction i with
    | zero => intro _; exact ⟨hlo, Int.le_refl _⟩
    | succ i ih =>
      intro hi'
      obtain ⟨n1, n2⟩ := ih (by omega)
      have hn : (marker lo leaf (i + 1)).isNaN = false := add_notNaN n1 hleaf
      have hge : (marker lo leaf i).rank ≤ (marker lo leaf (i + 1)).rank := le_add_rank hF n1 hleaf hpos
      have hlt := (lt_rank hn (finite_cases hhi).1).1 (h.1 (i + 1) hi')
      exact ⟨finite_between hlo hhi (by omega) (by omega), by omega⟩
  have hnan : ∀ i, i < k → (marker lo leaf (i + 1)).isNaN = false := fun i hi' => add_notNaN (hfin i hi').1 hleaf
  have hstep : ∀ i, i < k → (marker lo leaf i).rank ≤ (marker lo leaf (i + 1)).rank :=
    fun i hi' => le_add_rank hF (hfin i hi').1 hleaf hpos
  have hmono : ∀ n i, i + n ≤ k → (marker lo leaf i).rank ≤ (marker lo leaf (i + n)).rank := by
    intro n
    induction n with
    | zero => intro i _; exact Int.le_refl _
    | succ n ih =>
      intro i hi'
      have h1 := ih i (by omega)
      have h2 := hstep (i + n) (by omega)
      rw [show i + (n + 1) = i + n + 1 by omega]
      omega
  refine ⟨?_, ?_, ?_⟩
  · intro m hm
    obtain ⟨i, hi', rfl⟩ := List.mem_map.1 hm
    exact hnan i (List.mem_range.1 hi')
  · unfold markersOf
    rw [List.pairwise_map]
    refine List.Pairwise.imp_of_mem ?_ (List.pairwise_lt_range)
    intro a b ha hb hab
    have hb' := List.mem_range.1 hb
    have := hmono (b - a) (a + 1) (by omega)
    rw [show a + 1 + (b - a) = b + 1 by omega] at this
    exact this
  · intro _
    refine ⟨marker lo leaf k, ?_, ?_⟩
    · refine List.mem_map.2 ⟨k - 1, List.mem_range.2 (by omega), ?_⟩
      show marker lo leaf (k - 1 + 1) = _
      rw [show k - 1 + 1 = k by omega]
    · have hn := hnan (k - 1) (by omega)
      rw [show k - 1 + 1 = k by omega] at hn
      by_contra hc
      have := (lt_rank hn (finite_cases hhi).1).2 (by omega)
      rw [h.2] at this
      cases this

/-! ## The leaf of a coordinate -/

theorem pass_spec {x : F64} : ∀ (ms : List F64) (i : Nat), (∃ m ∈ ms, Flt.lt m x = false) →
    ∃ j m, passMarkers x ms i = .ok (i + j) ∧ ms[j]? = some m ∧ Flt.lt m x = false ∧
      ∀ j' m', j' < j → ms[j']? = some m' → Flt.lt m' x = true := by
  intro ms
  induction ms with
  | nil => rintro i ⟨m, hm, _⟩; cases hm
  | cons a ms ih =>
    rintro i ⟨m, hm, hlt⟩
    unfold passMarkers
    cases ha : Flt.lt a x with
    | false =>
      exact ⟨0, a, rfl, rfl, ha, fun j' _ hj' => absurd hj' (by omega)⟩
    | true =>
      rw [if_pos rfl]
      rcases List.mem_cons.1 hm with rfl | hm'
      · rw [hlt] at ha; cases ha
      · obtain ⟨j, m', h1, h2, h3, h4⟩ := ih (i + 1) ⟨m, hm', hlt⟩
        refine ⟨j + 1, m', ?_, h2, h3, ?_⟩
        · rw [h1, show i + 1 + j = i + (j + 1) by omega]
        · intro j' m'' hj' hm''
          cases j' with
          | zero => cases hm''; exact ha
          | succ j' => exact h4 j' m'' (by omega) hm''

theorem distance_notNaN {x m : F64} (hx : x.isFinite = true) (hm : m.isNaN = false) : (distance x m).isNaN = false := by
  unfold distance
  split
  · exact sub_notNaN hx hm
  · exact sub_notNaN' usable_f64 hm hx

theorem leaf_spec {hi : F64} {ms : List F64} (h : GoodAxis hi ms) {x : F64} (hx : x.isFinite = true)
    (hxhi : x.rank ≤ hi.rank) : ∃ j, leafOnAxis x ms = .ok j ∧ NearestMarker ms x j := by
  have hF := usable_f64
  have hxn := (finite_cases hx).1
  unfold leafOnAxis
  cases hms : ms with
  | nil => exact ⟨0, rfl, .inl ⟨rfl, rfl⟩⟩
  | cons a rest =>
    rw [← hms]
    have hne : ms ≠ [] := by rw [hms]; exact List.cons_ne_nil _ _
    rw [if_neg (by rw [hms]; simp)]
    obtain ⟨m, hm, hr⟩ := h.reach hne
    obtain ⟨j, u, h1, h2, h3, h4⟩ := pass_spec ms 0 ⟨m, hm, by
      cases hc : Flt.lt m x with
      | false => rfl
      | true => have := (lt_rank (h.notNaN m hm) hxn).1 hc; omega⟩
    rw [h1, Nat.zero_add]
    have hu := List.mem_of_getElem? h2
    have hun := h.notNaN u hu
    have hxu : x.rank ≤ u.rank := by
      by_contra hc
      rw [(lt_rank hun hxn).2 (by omega)] at h3
      cases h3
    have hsorted : ∀ (p q : Nat) (a b : F64), p ≤ q → ms[p]? = some a → ms[q]? = some b → a.rank ≤ b.rank := by
      intro p q a b hpq ha hb
      by_cases he : p = q
      · subst he; rw [ha] at hb; cases hb; exact Int.le_refl _
      · obtain ⟨hp, rfl⟩ := List.getElem?_eq_some_iff.1 ha
        obtain ⟨hq, rfl⟩ := List.getElem?_eq_some_iff.1 hb
        exact List.pairwise_iff_getElem.1 h.sorted p q hp hq (by omega)
    have hdu : distance x u = u.sub x := by unfold distance; rw [h3]; rfl
    -- markers from `u` on are at least as far from `x`
    have hup : ∀ (q : Nat) (b : F64), j ≤ q → ms[q]? = some b → (u.sub x).rank ≤ (distance x b).rank := by
      intro q b hq hb
      have hbn := h.notNaN b (List.mem_of_getElem? hb)
      have hub := hsorted j q u b hq h2 hb
      have hlt : Flt.lt b x = false := by
        cases hc : Flt.lt b x with
        | false => rfl
        | true => have := (lt_rank hbn hxn).1 hc; omega
      unfold distance
      rw [hlt]
      exact sub_rank_mono hF hx hun hbn hub
    show ∃ j', (if j > 0 then _ else _) = Except.ok j' ∧ _
    by_cases hj : j > 0
    · rw [if_pos hj]
      have hjl : j < ms.length := (List.getElem?_eq_some_iff.1 h2).1
      have hl : ms[j - 1]? = some ms[j - 1] := List.getElem?_eq_getElem (by omega)
      generalize ms[j - 1] = w at hl
      have hwn := h.notNaN w (List.mem_of_getElem? hl)
      have hwx := h4 (j - 1) w (by omega) hl
      have hdw : distance x w = x.sub w := by unfold distance; rw [hwx]; rfl
      have hdown : ∀ (q : Nat) (b : F64), q < j → ms[q]? = some b → (x.sub w).rank ≤ (distance x b).rank := by
        intro q b hq hb
        have hbn := h.notNaN b (List.mem_of_getElem? hb)
        unfold distance
        rw [h4 q b hq hb]
        exact sub_rank_anti hF hx hbn hwn (hsorted q (j - 1) b w (by omega) hb hl)
      have hn1 := sub_notNaN hx hwn
      have hn2 := sub_notNaN' hF hun hx
      rw [hl, h2]
      show ∃ j', (if Flt.lt (x.sub w) (u.sub x) = true then _ else _) = Except.ok j' ∧ _
      cases hc : Flt.lt (x.sub w) (u.sub x) with
      | true =>
        have hc' := (lt_rank hn1 hn2).1 hc
        refine ⟨j - 1, rfl, .inr ⟨w, hl, ?_⟩⟩
        intro b hb
        obtain ⟨q, hq⟩ := List.getElem?_of_mem hb
        rw [le_rank (distance_notNaN hx hwn) (distance_notNaN hx (h.notNaN b hb)), hdw]
        by_cases hqj : q < j
        · exact hdown q b hqj hq
        · have := hup q b (by omega) hq
          omega
      | false =>
        have hc' : (u.sub x).rank ≤ (x.sub w).rank := by
          by_contra h'
          rw [(lt_rank hn1 hn2).2 (by omega)] at hc
          cases hc
        refine ⟨j, rfl, .inr ⟨u, h2, ?_⟩⟩
        intro b hb
        obtain ⟨q, hq⟩ := List.getElem?_of_mem hb
        rw [le_rank (distance_notNaN hx hun) (distance_notNaN hx (h.notNaN b hb)), hdu]
        by_cases hqj : q < j
        · have := hdown q b hqj hq
          omega
        · exact hup q b (by omega) hq
    · rw [if_neg hj]
      refine ⟨j, rfl, .inr ⟨u, h2, ?_⟩⟩
      intro b hb
      obtain ⟨q, hq⟩ := List.getElem?_of_mem hb
      rw [le_rank (distance_notNaN hx hun) (distance_notNaN hx (h.notNaN b hb)), hdu]
      exact hup q b (by omega) hq

/-! ## Binary search -/

theorem posLt_iff (a b : P3 Nat) : posLt a b = true ↔ LexLt a b := by
  unfold posLt LexLt
  simp

theorem lex_total {a b : P3 Nat} (h : a ≠ b) (h' : ¬ LexLt a b) : LexLt b a := by
  obtain ⟨ax, ay, az⟩ := a
  obtain ⟨bx, bY, bz⟩ := b
  unfold LexLt at h' ⊢
  dsimp only at h' ⊢
  have : ¬ (ax = bx ∧ ay = bY ∧ az = bz) := by
    rintro ⟨rfl, rfl, rfl⟩
    exact h rfl
  omega

theorem lex_trans {a b c : P3 Nat} (h : LexLt a b) (h' : LexLt b c) : LexLt a c := by
  unfold LexLt at *
  omega

theorem lex_irrefl (a : P3 Nat) : ¬ LexLt a a := by
  unfold LexLt
  omega

/-- Strictly increasing voxels. -/
abbrev Ascending (vs : List Voxel) : Prop := vs.Pairwise fun a b => LexLt a.pos b.pos

theorem search_loop {vs : List Voxel} (hs : Ascending vs) (pos : P3 Nat) : ∀ (fuel left right : Nat),
    right - left ≤ fuel → left ≤ right → right ≤ vs.length →
    (∀ j v, j < left → vs[j]? = some v → LexLt v.pos pos) →
    (∀ j v, right ≤ j → vs[j]? = some v → LexLt pos v.pos) →
    (∃ i v, searchLoop vs pos fuel left right = .ok (.found i) ∧ vs[i]? = some v ∧ v.pos = pos) ∨
    (∃ i, searchLoop vs pos fuel left right = .ok (.insertAt i) ∧ i ≤ vs.length ∧
      (∀ j v, j < i → vs[j]? = some v → LexLt v.pos pos) ∧ (∀ j v, i ≤ j → vs[j]? = some v → LexLt pos v.pos)) := by
  have hord : ∀ (p q : Nat) (a b : Voxel), p < q → vs[p]? = some a → vs[q]? = some b → LexLt a.pos b.pos := by
    intro p q a b hpq ha hb
    obtain ⟨hp, rfl⟩ := List.getElem?_eq_some_iff.1 ha
    obtain ⟨hq, rfl⟩ := List.getElem?_eq_some_iff.1 hb
    exact List.pairwise_iff_getElem.1 hs p q hp hq hpq
  intro fuel
  induction fuel with
  | zero =>
    intro left right h1 h2 h3 h4 h5
    exact .inr ⟨left, rfl, by omega, h4, fun j v hj => h5 j v (by omega)⟩
  | succ fuel ih =>
    intro left right h1 h2 h3 h4 h5
    unfold searchLoop
    by_cases hlr : left < right
    · rw [if_pos hlr]
      dsimp only
      have hm : left + (right - left) / 2 < vs.length := by omega
      obtain ⟨v, hv⟩ : ∃ v, vs[left + (right - left) / 2]? = some v := ⟨_, List.getElem?_eq_getElem hm⟩
      rw [hv]
      show (∃ i w, (if v.pos = pos then _ else _) = _ ∧ _) ∨ (∃ i, (if v.pos = pos then _ else _) = _ ∧ _)
      by_cases he : v.pos = pos
      · left
        exact ⟨_, v, by rw [if_pos he]; rfl, hv, he⟩
      · rw [if_neg he]
        cases hc : posLt v.pos pos with
        | true =>
          have hlt := (posLt_iff _ _).1 hc
          rw [if_pos rfl]
          refine ih _ right (by omega) (by omega) h3 ?_ h5
          intro j w hj hw
          by_cases hj' : j = left + (right - left) / 2
          · subst hj'; rw [hv] at hw; cases hw; exact hlt
          · exact lex_trans (hord j _ w v (by omega) hw hv) hlt
        | false =>
          have hgt := lex_total he fun hl => by rw [(posLt_iff _ _).2 hl] at hc; cases hc
          rw [if_neg Bool.false_ne_true]
          refine ih left _ (by omega) (by omega) (by omega) h4 ?_
          intro j w hj hw
          by_cases hj' : j = left + (right - left) / 2
          · subst hj'; rw [hv] at hw; cases hw; exact hgt
          · exact lex_trans hgt (hord _ j v w (by omega) hv hw)
    · rw [if_neg hlr]
      exact .inr ⟨left, rfl, by omega, h4, fun j v hj => h5 j v (by omega)⟩

theorem binary_search {vs : List Voxel} (hs : Ascending vs) (pos : P3 Nat) :
    (∃ i v, binarySearch vs pos = .ok (.found i) ∧ vs[i]? = some v ∧ v.pos = pos) ∨
    (∃ i, binarySearch vs pos = .ok (.insertAt i) ∧ i ≤ vs.length ∧
      (∀ j v, j < i → vs[j]? = some v → LexLt v.pos pos) ∧ (∀ j v, i ≤ j → vs[j]? = some v → LexLt pos v.pos)) :=
  search_loop hs pos vs.length 0 vs.length (by omega) (by omega) (Nat.le_refl _)
    (fun j _ hj => absurd hj (by omega)) (fun j v hj hv => by
      have := (List.getElem?_eq_some_iff.1 hv).1
      omega)

/-! ## Collecting the voxels -/

/-- The voxels after the points before `n`. -/
structure Collected (leafOf : Nat → Option (P3 Nat)) (n : Nat) (vs : List Voxel) : Prop where
  ascending : Ascending vs
  nonempty : ∀ v ∈ vs, v.points ≠ []
  increasing : ∀ v ∈ vs, v.points.Pairwise (· < ·)
  inside : ∀ v ∈ vs, ∀ i ∈ v.points, i < n ∧ leafOf i = some v.pos
  all : ∀ i < n, ∃ v ∈ vs, i ∈ v.points

theorem collected_step {leafOf : Nat → Option (P3 Nat)} {n : Nat} {vs : List Voxel} (h : Collected leafOf n vs)
    {mx my mz : List F64} {p : P3 F64} {pos : P3 Nat} (hp : findLeaf p mx my mz = .ok pos) (hl : leafOf n = some pos) :
    ∃ vs', voxelStep mx my mz vs (n, p) = .ok vs' ∧ Collected leafOf (n + 1) vs' := by
  unfold voxelStep
  rw [hp]
  show ∃ vs', (binarySearch vs pos).bind _ = _ ∧ _
  rcases binary_search h.ascending pos with ⟨i, v, h1, h2, h3⟩ | ⟨i, h1, h2, h3, h4⟩
  · rw [h1]
    have hi : i < vs.length := (List.getElem?_eq_some_iff.1 h2).1
    have hv := List.mem_of_getElem? h2
    have hmem : ∀ w, w ∈ vs.set i { v with points := v.points ++ [n] } →
        w = { v with points := v.points ++ [n] } ∨ w ∈ vs := fun w hw => (List.mem_or_eq_of_mem_set hw).symm
    refine ⟨vs.set i { v with points := v.points ++ [n] }, ?_, ?_⟩
    · show pushPoint vs i n = _
      unfold pushPoint
      rw [h2]
      rfl
    · refine ⟨?_, ?_, ?_, ?_, ?_⟩
      · have e : (vs.set i { v with points := v.points ++ [n] }).map Voxel.pos = vs.map Voxel.pos := by
          rw [List.map_set]
          apply List.ext_getElem?
          intro j
          rw [List.getElem?_set]
          split
          · subst_vars
            rw [List.getElem?_map, h2]
            simp [hi]
          · rfl
        have h0 := h.ascending
        unfold Ascending at h0 ⊢
        rw [← List.pairwise_map (f := Voxel.pos) (R := LexLt)] at h0 ⊢
        rw [e]
        exact h0
      · intro w hw
        rcases hmem w hw with rfl | hw
        · simp
        · exact h.nonempty w hw
      · intro w hw
        rcases hmem w hw with rfl | hw
        · rw [List.pairwise_append]
          refine ⟨h.increasing v hv, List.pairwise_singleton _ _, ?_⟩
          intro a ha b hb
          rw [List.mem_singleton.1 hb]
          exact (h.inside v hv a ha).1
        · exact h.increasing w hw
      · intro w hw j hj
        rcases hmem w hw with rfl | hw
        · rcases List.mem_append.1 hj with hj | hj
          · have := h.inside v hv j hj
            exact ⟨by omega, this.2⟩
          · rw [List.mem_singleton.1 hj]
            exact ⟨by omega, by rw [hl, ← h3]⟩
        · have := h.inside w hw j hj
          exact ⟨by omega, this.2⟩
      · intro j hj
        have hnew : { v with points := v.points ++ [n] } ∈ vs.set i { v with points := v.points ++ [n] } :=
          List.mem_set hi _
        by_cases hjn : j = n
        · subst hjn
          exact ⟨_, hnew, by simp⟩
        · obtain ⟨w, hw, hjw⟩ := h.all j (by omega)
          by_cases hwv : w = v
          · subst hwv
            exact ⟨_, hnew, List.mem_append_left _ hjw⟩
          · obtain ⟨q, hq⟩ := List.getElem?_of_mem hw
            refine ⟨w, ?_, hjw⟩
            apply List.mem_of_getElem? (i := q)
            rw [List.getElem?_set, if_neg]
            · exact hq
            · rintro rfl
              rw [h2] at hq
              exact hwv (Option.some.inj hq).symm
  · rw [h1]
    have hmem : ∀ w, w ∈ vs.take i ++ ⟨pos, [n]⟩ :: vs.drop i ↔ w = ⟨pos, [n]⟩ ∨ w ∈ vs := by
      intro w
      have : w ∈ vs ↔ w ∈ vs.take i ∨ w ∈ vs.drop i := by
        rw [← List.mem_append, List.take_append_drop]
      rw [List.mem_append, List.mem_cons, this]
      tauto
    refine ⟨vs.take i ++ ⟨pos, [n]⟩ :: vs.drop i, ?_, ?_⟩
    · show vecInsert vs i _ = _
      unfold vecInsert
      rw [if_pos h2]
    · refine ⟨?_, ?_, ?_, ?_, ?_⟩
      · have h0 : Ascending (vs.take i ++ vs.drop i) := by rw [List.take_append_drop]; exact h.ascending
        obtain ⟨a1, a2, a3⟩ := List.pairwise_append.1 h0
        have hlow : ∀ w ∈ vs.take i, LexLt w.pos pos := by
          intro w hw
          obtain ⟨q, hq⟩ := List.getElem?_of_mem hw
          have hql := (List.getElem?_eq_some_iff.1 hq).1
          rw [List.length_take] at hql
          rw [List.getElem?_take_of_lt (by omega)] at hq
          exact h3 q w (by omega) hq
        have hhigh : ∀ w ∈ vs.drop i, LexLt pos w.pos := by
          intro w hw
          obtain ⟨q, hq⟩ := List.getElem?_of_mem hw
          rw [List.getElem?_drop] at hq
          exact h4 (i + q) w (by omega) hq
        refine List.pairwise_append.2 ⟨a1, List.pairwise_cons.2 ⟨hhigh, a2⟩, ?_⟩
        intro a ha b hb
        rcases List.mem_cons.1 hb with rfl | hb
        · exact hlow a ha
        · exact a3 a ha b hb
      · intro w hw
        rcases (hmem w).1 hw with rfl | hw
        · simp
        · exact h.nonempty w hw
      · intro w hw
        rcases (hmem w).1 hw with rfl | hw
        · exact List.pairwise_singleton _ _
        · exact h.increasing w hw
      · intro w hw j hj
        rcases (hmem w).1 hw with rfl | hw
        · rw [List.mem_singleton.1 hj]
          exact ⟨by omega, hl⟩
        · have := h.inside w hw j hj
          exact ⟨by omega, this.2⟩
      · intro j hj
        by_cases hjn : j = n
        · subst hjn
          exact ⟨_, (hmem _).2 (.inl rfl), by simp⟩
        · obtain ⟨w, hw, hjw⟩ := h.all j (by omega)
          exact ⟨w, (hmem _).2 (.inr hw), hjw⟩

/-- The leaf of point number `i`. -/
def leafAt (mx my mz : List F64) (positions : List (P3 F64)) (i : Nat) : Option (P3 Nat) :=
  match positions[i]? with
  | none => none
  | some p => (findLeaf p mx my mz).toOption

theorem zip_range_snoc (ps : List (P3 F64)) (p : P3 F64) : (List.range (ps ++ [p]).length).zip (ps ++ [p]) =
    (List.range ps.length).zip ps ++ [(ps.length, p)] := by
  rw [List.length_append, List.length_singleton, List.range_succ, List.zip_append (by simp)]
  rfl

theorem collect_voxels (mx my mz : List F64) (positions : List (P3 F64))
    (h : ∀ p ∈ positions, ∃ pos, findLeaf p mx my mz = .ok pos) :
    ∃ vs, collectVoxels mx my mz positions = .ok vs ∧ Collected (leafAt mx my mz positions) positions.length vs := by
  have key : ∀ (n : Nat), n ≤ positions.length → ∃ vs,
      collectVoxels mx my mz (positions.take n) = .ok vs ∧ Collected (leafAt mx my mz positions) n vs := by
    intro n
    induction n with
    | zero =>
      intro _
      refine ⟨[], rfl, List.Pairwise.nil, ?_, ?_, ?_, ?_⟩
      · intro v hv; cases hv
      · intro v hv; cases hv
      · intro v hv; cases hv
      · intro i hi; omega
    | succ n ih =>
      intro hn
      obtain ⟨vs, h1, h2⟩ := ih (by omega)
      have hg : positions[n]? = some positions[n] := List.getElem?_eq_getElem (by omega)
      generalize positions[n] = p at hg
      obtain ⟨pos, hpos⟩ := h p (List.mem_of_getElem? hg)
      obtain ⟨vs', h3, h4⟩ := collected_step h2 (p := p) hpos (by
        unfold leafAt
        rw [hg]
        show (findLeaf p mx my mz).toOption = _
        rw [hpos]
        rfl)
      refine ⟨vs', ?_, h4⟩
      have e : positions.take (n + 1) = positions.take n ++ [p] := by
        rw [List.take_add_one, hg]
        rfl
      unfold collectVoxels at h1 ⊢
      rw [e, zip_range_snoc, forLoop_append, h1]
      show forLoop _ _ _ = _
      rw [forLoop_cons, show (positions.take n).length = n by rw [List.length_take]; omega, h3]
      rfl
  obtain ⟨vs, h1, h2⟩ := key positions.length (Nat.le_refl _)
  rw [List.take_length] at h1
  exact ⟨vs, h1, h2⟩

theorem collected_partition {g : Grid} {positions : List (P3 F64)} {vs : List Voxel}
    (h : Collected (leafAt g.x g.y g.z positions) positions.length vs)
    (hn : ∀ p ∈ positions, ∀ pos, findLeaf p g.x g.y g.z = .ok pos → g.Nearest p pos) :
    IsPartition g positions (vs.map fun v => (v.pos, v.points)) := by
  refine ⟨?_, ?_, ?_, ?_, ?_⟩
  · rw [List.pairwise_map]
    exact h.ascending
  · intro v hv
    obtain ⟨w, hw, rfl⟩ := List.mem_map.1 hv
    exact h.nonempty w hw
  · intro v hv
    obtain ⟨w, hw, rfl⟩ := List.mem_map.1 hv
    exact h.increasing w hw
  · intro v hv i hi
    obtain ⟨w, hw, rfl⟩ := List.mem_map.1 hv
    obtain ⟨h1, h2⟩ := h.inside w hw i hi
    unfold leafAt at h2
    cases hp : positions[i]? with
    | none => rw [hp] at h2; cases h2
    | some p =>
      rw [hp] at h2
      refine ⟨p, rfl, hn p (List.mem_of_getElem? hp) _ ?_⟩
      change (findLeaf p g.x g.y g.z).toOption = _ at h2
      cases hf : findLeaf p g.x g.y g.z with
      | error e => rw [hf] at h2; cases h2
      | ok pos => rw [hf] at h2; cases h2; rfl
  · intro i hi
    obtain ⟨v, hv, hiv⟩ := h.all i hi
    refine ⟨(v.pos, v.points), ⟨List.mem_map.2 ⟨v, hv, rfl⟩, hiv⟩, ?_⟩
    rintro w ⟨hw, hiw⟩
    obtain ⟨u, hu, rfl⟩ := List.mem_map.1 hw
    have h1 := (h.inside v hv i hiv).2
    have h2 := (h.inside u hu i hiw).2
    rw [h1] at h2
    have hpos := Option.some.inj h2
    have : u = v := by
      by_contra hne
      obtain ⟨p, hp, rfl⟩ := List.getElem_of_mem hu
      obtain ⟨q, hq, rfl⟩ := List.getElem_of_mem hv
      have hpq : p ≠ q := by rintro rfl; exact hne rfl
      rcases Nat.lt_or_gt_of_ne hpq with hlt | hlt
      · have := List.pairwise_iff_getElem.1 h.ascending p q hp hq hlt
        rw [hpos] at this
        exact lex_irrefl _ this
      · have := List.pairwise_iff_getElem.1 h.ascending q p hq hp hlt
        rw [hpos] at this
        exact lex_irrefl _ this
    rw [this]

end Pasture.Voxel
