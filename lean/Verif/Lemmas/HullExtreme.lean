import Verif.Lemmas.HullConvex

/-! # The vertices of the mesh are the extreme points -/

namespace Pasture.Hull

open Spec

variable {α : Type} [Arith α] {look : Nat → Out (P3 α)} {Q : Nat → P3 α} {R : Nat → P3 ℝ} {n : Nat}

theorem exists_other (v u : Nat) : ∃ l < 3, l ≠ v ∧ l ≠ u := by
  by_cases h0 : 0 ≠ v ∧ 0 ≠ u
  · exact ⟨0, by omega, h0⟩
  by_cases h1 : 1 ≠ v ∧ 1 ≠ u
  · exact ⟨1, by omega, h1⟩
  exact ⟨2, by omega, by omega⟩

theorem exists_fourth (v u l : Nat) : ∃ m < 4, m ≠ v ∧ m ≠ u ∧ m ≠ l := by
  by_cases h0 : 0 ≠ v ∧ 0 ≠ u ∧ 0 ≠ l
  · exact ⟨0, by omega, h0⟩
  by_cases h1 : 1 ≠ v ∧ 1 ≠ u ∧ 1 ≠ l
  · exact ⟨1, by omega, h1⟩
  by_cases h2 : 2 ≠ v ∧ 2 ≠ u ∧ 2 ≠ l
  · exact ⟨2, by omega, h2⟩
  exact ⟨3, by omega, by omega⟩

theorem Exact.inj (hX : Exact look Q R n) (hn : 4 ≤ n) {v u : Nat} (hv : v < n) (hu : u < n) (h : R v = R u) : v = u := by
  by_contra hne
  obtain ⟨l, l0, l1, l2⟩ := exists_other v u
  obtain ⟨m, m0, m1, m2, m3⟩ := exists_fourth v u l
  refine hX.ne_zero (i := v) (j := u) (l := l) (m := m) hv hu (by omega) (by omega) hne (by omega) (by omega) (by omega) (by omega) (by omega) ?_
  unfold vol
  rw [h]
  unfold volume
  ring

omit [Arith α] in
theorem vertex_lt {ts : List (Tri α)} {k v : Nat} (h : ∀ t ∈ ts, Good k t) (hv : v ∈ vertices ts) : v < k := by
  obtain ⟨t, ht, hv⟩ := mem_vertices.1 hv
  have hg := h t ht
  rcases hv with rfl | rfl | rfl
  · exact hg.a_lt
  · exact hg.b_lt
  · exact hg.c_lt

/-- All points are in the hull of the vertices. -/
theorem mesh_spans (hX : Exact look Q R n) (hn : 4 ≤ n) {ts : List (Tri α)} (h : Mesh Q R n n ts) {q : Nat} (hq : q < n) :
    toVec (R q) ∈ convexHull ℝ {v | ∃ i ∈ vertices ts, v = toVec (R i)} := by
  by_cases hv : q ∈ vertices ts
  · exact subset_convexHull ℝ _ ⟨q, hv, rfl⟩
  · refine inside_hull h.nonempty h.nodup h.twin (fun t ht => ⟨(h.good t ht).ab, (h.good t ht).bc, (h.good t ht).ca⟩)
      (fun t ht v hv => h.inside t ht v (vertex_lt h.good hv))
      (fun v hv u hu e => hX.inj hn (vertex_lt h.good hv) (vertex_lt h.good hu) e) ?_
    intro t ht
    have hg := h.good t ht
    refine lt_of_le_of_ne (h.inside t ht q hq) ?_
    have hne : ∀ i, (i = t.a ∨ i = t.b ∨ i = t.c) → i ≠ q := by
      rintro i hi rfl
      exact hv (mem_vertices.2 ⟨t, ht, hi⟩)
    exact hX.ne_zero hg.a_lt hg.b_lt hg.c_lt hq hg.ab (fun e => hg.ca e.symm) (hne _ (by simp)) hg.bc (hne _ (by simp)) (hne _ (by simp))

/-- Some triangle at a vertex does not have a given other vertex. -/
theorem other_face (hX : Exact look Q R n) (hn : 4 ≤ n) {ts : List (Tri α)} (h : Mesh Q R n n ts) {v u : Nat}
    (hv : v ∈ vertices ts) (hu : u ≠ v) : ∃ t ∈ ts, (v = t.a ∨ v = t.b ∨ v = t.c) ∧ u ≠ t.a ∧ u ≠ t.b ∧ u ≠ t.c := by
  -- a triangle with the vertices v, b, c in this order
  have rot : ∀ t ∈ ts, (v = t.a ∨ v = t.b ∨ v = t.c) → ∃ b c, (⟨v, b⟩ : Edge) ∈ dedges t ∧ (⟨b, c⟩ : Edge) ∈ dedges t ∧ (⟨c, v⟩ : Edge) ∈ dedges t ∧
      (∀ q < n, vol R v b c q ≤ 0) ∧ v < n ∧ b < n ∧ c < n ∧ v ≠ b ∧ b ≠ c ∧ c ≠ v ∧
      (∀ i, (i = t.a ∨ i = t.b ∨ i = t.c) ↔ (i = v ∨ i = b ∨ i = c)) := by
    intro t ht hvt
    have hg := h.good t ht
    have hi := h.inside t ht
    have r1 := fun s => volume_rotate (R t.a) (R t.b) (R t.c) s
    have r2 := fun s => volume_rotate (R t.b) (R t.c) (R t.a) s
    rcases hvt with rfl | rfl | rfl
    · exact ⟨t.b, t.c, by simp [dedges], by simp [dedges], by simp [dedges], hi, hg.a_lt, hg.b_lt, hg.c_lt, hg.ab, hg.bc, hg.ca,
        fun i => Iff.rfl⟩
    · refine ⟨t.c, t.a, by simp [dedges], by simp [dedges], by simp [dedges], ?_, hg.b_lt, hg.c_lt, hg.a_lt, hg.bc, hg.ca, hg.ab, ?_⟩
      · intro q hq
        unfold vol
        rw [r1]
        exact hi q hq
      · intro i; omega
    · refine ⟨t.a, t.b, by simp [dedges], by simp [dedges], by simp [dedges], ?_, hg.c_lt, hg.a_lt, hg.b_lt, hg.ca, hg.ab, hg.bc, ?_⟩
      · intro q hq
        unfold vol
        rw [r2, r1]
        exact hi q hq
      · intro i; omega
  -- two triangles cannot have the same vertices in opposite orders
  have opp : ∀ b c, v < n → b < n → c < n → v ≠ b → b ≠ c → c ≠ v → (∀ q < n, vol R v b c q ≤ 0) → (∀ q < n, vol R v c b q ≤ 0) → False := by
    intro b c hv hb hc h1 h2 h3 h4 h5
    obtain ⟨m, m0, m1, m2, m3⟩ := exists_fourth v b c
    refine hX.ne_zero (i := v) (j := b) (l := c) (m := m) hv hb hc (by omega) h1 (by omega) (by omega) h2 (by omega) (by omega) ?_
    have e : vol R v c b m = -vol R v b c m := by unfold vol volume; ring
    have := h4 m (by omega)
    have := h5 m (by omega)
    linarith
  by_contra hcon
  obtain ⟨t, ht, hvt⟩ := mem_vertices.1 hv
  have all : ∀ s ∈ ts, (v = s.a ∨ v = s.b ∨ v = s.c) → (u = s.a ∨ u = s.b ∨ u = s.c) := by
    intro s hs hvs
    by_contra hc
    exact hcon ⟨s, hs, hvs, by omega⟩
  -- any triangle with an edge that ends or begins at v
  have at_v : ∀ s : Tri α, ∀ i, (⟨v, i⟩ : Edge) ∈ dedges s ∨ (⟨i, v⟩ : Edge) ∈ dedges s → v = s.a ∨ v = s.b ∨ v = s.c := by
    intro s i hi
    simp [dedges] at hi
    omega
  obtain ⟨b, c, e1, e2, e3, hin, b1, b2, b3, d1, d2, d3, hset⟩ := rot t ht hvt
  have hubc : u = b ∨ u = c := by
    have := (hset u).1 (all t ht hvt)
    omega
  rcases hubc with rfl | rfl
  · -- the triangle behind the edge from c to v
    have hm := h.twin ⟨c, v⟩ (List.mem_flatMap.2 ⟨t, ht, e3⟩)
    obtain ⟨s, hs, hes⟩ := List.mem_flatMap.1 hm
    have hes : (⟨v, c⟩ : Edge) ∈ dedges s := hes
    have hvs := at_v s c (.inl hes)
    obtain ⟨b', c', f1, f2, f3, hin', -, -, -, g1, g2, g3, hset'⟩ := rot s hs hvs
    have hb' : b' = c := by
      have hg := h.good s hs
      have := hg.ab; have := hg.bc; have := hg.ca
      simp [dedges] at hes f1 f2 f3
      omega
    have hc' : c' = u := by
      have := (hset' u).1 (all s hs hvs)
      omega
    rw [hb', hc'] at hin'
    exact opp u c b1 b2 b3 d1 d2 d3 hin hin'
  · have hm := h.twin ⟨v, b⟩ (List.mem_flatMap.2 ⟨t, ht, e1⟩)
    obtain ⟨s, hs, hes⟩ := List.mem_flatMap.1 hm
    have hes : (⟨b, v⟩ : Edge) ∈ dedges s := hes
    have hvs := at_v s b (.inr hes)
    obtain ⟨b', c', f1, f2, f3, hin', -, -, -, g1, g2, g3, hset'⟩ := rot s hs hvs
    have hc' : c' = b := by
      have hg := h.good s hs
      have := hg.ab; have := hg.bc; have := hg.ca
      simp [dedges] at hes f1 f2 f3
      omega
    have hb' : b' = u := by
      have := (hset' u).1 (all s hs hvs)
      omega
    rw [hb', hc'] at hin'
    exact opp b u b1 b2 b3 d1 d2 d3 hin hin'

/-- The normal of a triangle, not normalized. -/
def normalOf (R : Nat → P3 ℝ) (t : Tri α) : P3 ℝ :=
  let u := minus (R t.b) (R t.a)
  let v := minus (R t.c) (R t.a)
  ⟨u.y * v.z - u.z * v.y, u.z * v.x - u.x * v.z, u.x * v.y - u.y * v.x⟩

omit [Arith α] in
theorem along_normal (t : Tri α) (v u : Nat) (hv : v = t.a ∨ v = t.b ∨ v = t.c) :
    along (normalOf R t) (minus (R u) (R v)) = vol R t.a t.b t.c u := by
  rcases hv with rfl | rfl | rfl
  all_goals
    simp only [along, normalOf, minus, vol, volume]
    ring

/-- No vertex is in the hull of the other points. -/
theorem vertex_extreme (hX : Exact look Q R n) (hn : 4 ≤ n) {ts : List (Tri α)} (h : Mesh Q R n n ts) {v : Nat}
    (hv : v ∈ vertices ts) : toVec (R v) ∉ convexHull ℝ {p | ∃ i, i < n ∧ i ≠ v ∧ p = toVec (R i)} := by
  classical
  let F := ts.filter fun t => decide (v = t.a ∨ v = t.b ∨ v = t.c)
  let g : ℝ × ℝ × ℝ → ℝ := fun p => (F.map fun t => along (normalOf R t) ⟨p.1, p.2.1, p.2.2⟩).sum
  have hlin : ∀ ts : List (Tri α), IsLinearMap ℝ fun p : ℝ × ℝ × ℝ => (ts.map fun t => along (normalOf R t) ⟨p.1, p.2.1, p.2.2⟩).sum := by
    intro ts
    induction ts with
    | nil => exact ⟨by simp, by simp⟩
    | cons t ts ih =>
      constructor
      · intro p q
        have := ih.map_add p q
        simp only [List.map_cons, List.sum_cons] at this ⊢
        rw [this]
        simp only [along, Prod.fst_add, Prod.snd_add]
        ring
      · intro c p
        have := ih.map_smul c p
        simp only [List.map_cons, List.sum_cons] at this ⊢
        rw [this]
        simp only [along, Prod.smul_fst, Prod.smul_snd, smul_eq_mul]
        ring
  have hdiff : ∀ u : Nat, g (toVec (R u)) - g (toVec (R v)) = (F.map fun t => vol R t.a t.b t.c u).sum := by
    intro u
    have hF : ∀ t ∈ F, v = t.a ∨ v = t.b ∨ v = t.c := by
      intro t ht
      exact of_decide_eq_true (List.mem_filter.1 ht).2
    show (F.map _).sum - (F.map _).sum = _
    clear_value F
    induction F with
    | nil => simp
    | cons t F ih =>
      have h1 := ih fun s hs => hF s (List.mem_cons_of_mem _ hs)
      have h2 := along_normal (R := R) t v u (hF t List.mem_cons_self)
      simp only [List.map_cons, List.sum_cons]
      rw [← h1, ← h2]
      simp only [along, minus, toVec]
      ring
  have hneg : ∀ u, u < n → u ≠ v → g (toVec (R u)) < g (toVec (R v)) := by
    intro u hu huv
    rw [← sub_neg, hdiff u]
    obtain ⟨t, ht, hvt, hut⟩ := other_face hX hn h hv huv
    have htF : t ∈ F := List.mem_filter.2 ⟨ht, decide_eq_true hvt⟩
    have hg := h.good t ht
    have hle : ∀ s ∈ F, vol R s.a s.b s.c u ≤ 0 := fun s hs => h.inside s (List.mem_filter.1 hs).1 u hu
    have hlt : vol R t.a t.b t.c u < 0 := lt_of_le_of_ne (hle t htF)
      (hX.ne_zero hg.a_lt hg.b_lt hg.c_lt hu hg.ab (fun e => hg.ca e.symm) (Ne.symm hut.1) hg.bc (Ne.symm hut.2.1) (Ne.symm hut.2.2))
    have hnn := List.single_le_sum (l := F.map fun t => -vol R t.a t.b t.c u) (by
      intro y hy
      obtain ⟨s, hs, rfl⟩ := List.mem_map.1 hy
      have := hle s hs
      linarith) _ (List.mem_map.2 ⟨t, htF, rfl⟩)
    have e : (F.map fun t => -vol R t.a t.b t.c u).sum = -(F.map fun t => vol R t.a t.b t.c u).sum := by
      clear hnn hle htF hdiff
      clear_value F
      induction F with
      | nil => simp
      | cons t F ih => simp only [List.map_cons, List.sum_cons, ih]; ring
    rw [e] at hnn
    linarith
  have hsub : convexHull ℝ {p | ∃ i, i < n ∧ i ≠ v ∧ p = toVec (R i)} ⊆ {p | g p < g (toVec (R v))} := by
    refine convexHull_min ?_ ?_
    · rintro p ⟨i, hi, hiv, rfl⟩
      exact hneg i hi hiv
    · exact convex_halfSpace_lt (hlin F) _
  intro hc
  exact lt_irrefl (g (toVec (R v))) (hsub hc)

end Pasture.Hull
